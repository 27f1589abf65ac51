import Verif.Model.Ramanathan
import Verif.Lemmas.Weights
import Verif.Spec.Noise
import Verif.Props.Electrons
import Verif.Props.Interp

/-!
# Electron-hole pairs in silicon (C58, C59)
-/

namespace Optika

/-! ### Interpolation of values that may not be finite -/

theorem interpInfFrom_node {p : ℝ × Option ℝ} {r : List (ℝ × Option ℝ)}
    (h : (p :: r).Pairwise fun a b => a.1 < b.1) {i : ℕ} (hi : i < (p :: r).length) :
    interpInfFrom p r (p :: r)[i].1 = (p :: r)[i].2 := by
  induction r generalizing p i with
  | nil =>
    obtain rfl : i = 0 := by simpa using hi
    rfl
  | cons q r ih =>
    rw [List.pairwise_cons] at h
    unfold interpInfFrom
    cases i with
    | zero =>
      simp only [List.getElem_cons_zero]
      rw [if_pos (h.1 q (by simp))]
      simp [lerpInf]
    | succ i =>
      simp only [List.getElem_cons_succ]
      have hi' : i < (q :: r).length := by simpa using hi
      have hle : q.1 ≤ (q :: r)[i].1 := by
        cases i with
        | zero => exact le_rfl
        | succ i =>
          rw [List.pairwise_cons] at h
          exact (h.2.1 _ (List.getElem_mem (by simpa using hi'))).le
      rw [if_neg (not_lt.2 hle)]
      exact ih h.2 hi'

theorem interpInf_node {t : List (ℝ × Option ℝ)} (h : t.Pairwise fun a b => a.1 < b.1)
    (right : Option (Option ℝ)) {i : ℕ} (hi : i < t.length) :
    interpInf right t t[i].1 = t[i].2 := by
  cases t with
  | nil => simp at hi
  | cons p r =>
    have hle : ∀ {i j : ℕ} (hij : i ≤ j) (hj : j < (p :: r).length),
        ((p :: r)[i]'(by omega)).1 ≤ (p :: r)[j].1 := by
      intro i j hij hj
      rcases eq_or_lt_of_le hij with rfl | hlt
      · exact le_rfl
      · exact (List.pairwise_iff_getElem.1 h i j (by omega) hj hlt).le
    unfold interpInf
    dsimp only
    have h0 : p.1 ≤ (p :: r)[i].1 := hle (Nat.zero_le i) hi
    rw [if_neg (not_lt.2 h0), if_neg, interpInfFrom_node h hi]
    rw [not_lt, List.getLast_eq_getElem]
    exact hle (by omega) (by simp)

/-- A temperature of the tables. -/
inductive TableTemperature : ℝ → (PairRow → List ℝ) → Prop
  | cold : TableTemperature 0 PairRow.p0
  | cool : TableTemperature 100 PairRow.p100
  | room : TableTemperature 300 PairRow.p300

theorem temps_sorted (a b c : Option ℝ) :
    [((0 : ℝ), a), (100, b), (300, c)].Pairwise fun a b => a.1 < b.1 := by
  simp only [List.pairwise_cons, List.mem_cons, List.not_mem_nil, or_false]
  refine ⟨?_, ?_, by simp, List.Pairwise.nil⟩
  · rintro a (rfl | rfl) <;> norm_num
  · rintro a rfl; norm_num

theorem interpInf_temperature {T : ℝ} {g : PairRow → List ℝ} (h : TableTemperature T g)
    (f : List ℝ → Option ℝ) (r : PairRow) :
    interpInf none [(0, f r.p0), (100, f r.p100), (300, f r.p300)] T = f (g r) := by
  cases h
  · exact interpInf_node (temps_sorted (f r.p0) (f r.p100) (f r.p300)) none (i := 0) (by simp)
  · exact interpInf_node (temps_sorted (f r.p0) (f r.p100) (f r.p300)) none (i := 1) (by simp)
  · exact interpInf_node (temps_sorted (f r.p0) (f r.p100) (f r.p300)) none (i := 2) (by simp)

theorem energyPair_table {T : ℝ} {g : PairRow → List ℝ} (h : TableTemperature T g) (r : PairRow) :
    interpInf none [(0, div? r.energy (rowMean r.p0)), (100, div? r.energy (rowMean r.p100)),
      (300, div? r.energy (rowMean r.p300))] T = div? r.energy (rowMean (g r)) :=
  interpInf_temperature h (fun l => div? r.energy (rowMean l)) r

theorem tempInterp_temperature {T : ℝ} {g : PairRow → List ℝ} (h : TableTemperature T g)
    (f : List ℝ → ℝ) (r : PairRow) : tempInterp (f r.p0) (f r.p100) (f r.p300) T = f (g r) := by
  unfold tempInterp interp
  cases h
  · norm_num [interpFrom]
  · norm_num [interpFrom]
  · norm_num [interpFrom]

/-! ### Distributions -/

/-- The distribution given by the probabilities of 1, 2, ... pairs. -/
def distributionOf (l : List ℝ) : ℕ → ℝ
  | 0 => 0
  | k + 1 => l.getD k 0

/-- The probabilities of 1 to `num` pairs. -/
structure IsDistribution (num : ℕ) (l : List ℝ) : Prop where
  length : l.length = num
  nonneg : ∀ k, 0 ≤ l.getD k 0
  sum : l.sum = 1

/-- A row of the tables whose probabilities are distributions. -/
structure PairRow.Proper (num : ℕ) (r : PairRow) : Prop where
  cold : IsDistribution num r.p0
  cool : IsDistribution num r.p100
  room : IsDistribution num r.p300

theorem PairRow.Proper.of {num : ℕ} {r : PairRow} (h : r.Proper num) {T : ℝ}
    {g : PairRow → List ℝ} (hT : TableTemperature T g) : IsDistribution num (g r) := by
  cases hT
  exacts [h.cold, h.cool, h.room]

theorem range_map_sum (n : ℕ) (f : ℕ → ℝ) :
    ((List.range n).map f).sum = ∑ k ∈ Finset.range n, f k := by
  induction n with
  | zero => simp
  | succ n ih => simp [List.range_succ, Finset.sum_range_succ, ih]

theorem sum_eq_range (l : List ℝ) : l.sum = ∑ k ∈ Finset.range l.length, l.getD k 0 := by
  rw [← range_map_sum]
  congr 1
  apply List.ext_getElem
  · simp
  · intro n h1 h2
    simp [List.getD_eq_getElem?_getD, List.getElem?_eq_getElem h1]

theorem pairMean_distribution {num : ℕ} {l : List ℝ} (f : ℕ → ℝ) :
    pairMean num (distributionOf l) f = ∑ k ∈ Finset.range num, l.getD k 0 * f (k + 1) := by
  unfold pairMean
  rw [Finset.sum_range_succ']
  simp [distributionOf]

theorem rowMean_eq {num : ℕ} {l : List ℝ} (h : l.length = num) :
    rowMean l = pairMean num (distributionOf l) (fun k => k) := by
  unfold rowMean
  rw [range_map_sum, pairMean_distribution, h]
  refine Finset.sum_congr rfl fun k _ => ?_
  push_cast
  ring

theorem rowMeanSq_eq {num : ℕ} {l : List ℝ} (h : l.length = num) :
    rowMeanSq l = pairMean num (distributionOf l) (fun k => (k : ℝ) ^ 2) := by
  unfold rowMeanSq
  rw [range_map_sum, pairMean_distribution, h]
  refine Finset.sum_congr rfl fun k _ => ?_
  push_cast
  ring

theorem IsDistribution.total {num : ℕ} {l : List ℝ} (h : IsDistribution num l) :
    pairMean num (distributionOf l) (fun _ => 1) = 1 := by
  rw [pairMean_distribution]
  simp only [mul_one]
  rw [← h.length, ← sum_eq_range, h.sum]

theorem IsDistribution.mean_ge_one {num : ℕ} {l : List ℝ} (h : IsDistribution num l) :
    1 ≤ pairMean num (distributionOf l) (fun k => k) := by
  rw [← h.total, pairMean_distribution, pairMean_distribution]
  refine Finset.sum_le_sum fun k _ => mul_le_mul_of_nonneg_left ?_ (h.nonneg k)
  push_cast
  have : (0 : ℝ) ≤ k := k.cast_nonneg
  linarith

theorem pairProbabilities_getD (table : List PairRow) (num : ℕ) (E T : ℝ) {k : ℕ} (hk : k < num) :
    (pairProbabilities table num E T).getD k 0 = (probabilityOfPairs table E T k).getD 0 := by
  unfold pairProbabilities
  simp [List.getD_eq_getElem?_getD, hk]

/-- **C58**: for every energy and temperature, the interpolated probabilities are a distribution. -/
theorem C58_distribution {table : List PairRow} {num : ℕ} (hne : table ≠ [])
    (hs : table.Pairwise fun a b => a.energy ≤ b.energy) (hp : ∀ r ∈ table, r.Proper num)
    (E T : ℝ) : IsDistribution num (pairProbabilities table num E T) := by
  obtain ⟨w, w0, w1, hw⟩ := interp_weights table PairRow.energy hs hne E
  obtain ⟨a, b, c, ha, hb, hc, habc, hT⟩ := tempInterp_weights T
  have hk : ∀ k, probabilityOfPairs table E T k = some (∑ i, w i
      * (a * (table.get i).p0.getD k 0 + b * (table.get i).p100.getD k 0
        + c * (table.get i).p300.getD k 0)) := by
    intro k
    unfold probabilityOfPairs tempInterp
    simp only [hT, Option.getD_some]
    exact hw _
  have hlen : (pairProbabilities table num E T).length = num := by simp [pairProbabilities]
  refine ⟨hlen, fun k => ?_, ?_⟩
  · by_cases h : k < num
    · rw [pairProbabilities_getD _ _ _ _ h, hk, Option.getD_some]
      refine Finset.sum_nonneg fun i _ => mul_nonneg (w0 i) ?_
      have hr := hp _ (List.get_mem table i)
      have h1 := hr.cold.nonneg k
      have h2 := hr.cool.nonneg k
      have h3 := hr.room.nonneg k
      positivity
    · rw [List.getD_eq_getElem?_getD, List.getElem?_eq_none (by omega)]
      exact le_rfl
  · rw [sum_eq_range, hlen]
    rw [Finset.sum_congr rfl fun k hk' => by
      rw [pairProbabilities_getD _ _ _ _ (Finset.mem_range.1 hk'), hk, Option.getD_some]]
    rw [Finset.sum_comm]
    rw [← w1]
    refine Finset.sum_congr rfl fun i _ => ?_
    rw [← Finset.mul_sum, Finset.sum_add_distrib, Finset.sum_add_distrib, ← Finset.mul_sum,
      ← Finset.mul_sum, ← Finset.mul_sum]
    have hr := hp _ (List.get_mem table i)
    have e : ∀ l : List ℝ, IsDistribution num l → ∑ k ∈ Finset.range num, l.getD k 0 = 1 := by
      intro l hl
      rw [← hl.sum, sum_eq_range, hl.length]
    rw [e _ hr.cold, e _ hr.cool, e _ hr.room, mul_one, mul_one, mul_one, habc, mul_one]

/-- A table of two energies: one pair at 1.2 eV, and one or two at 8 eV. -/
example : IsDistribution 2 (pairProbabilities
    [⟨1.2, [1, 0], [1, 0], [1, 0]⟩, ⟨8, [1 / 4, 3 / 4], [1 / 2, 1 / 2], [1 / 4, 3 / 4]⟩] 2 5 170) := by
  apply C58_distribution
  · simp
  · norm_num
  · have h : ∀ a b : ℝ, 0 ≤ a → 0 ≤ b → a + b = 1 → IsDistribution 2 [a, b] := by
      intro a b ha hb hab
      refine ⟨rfl, fun k => ?_, by simpa using hab⟩
      rcases k with _ | _ | k <;> simp [ha, hb]
    intro r hr
    simp only [List.mem_cons, List.not_mem_nil, or_false] at hr
    rcases hr with rfl | rfl
    · constructor <;> apply h <;> norm_num
    · constructor <;> apply h <;> norm_num

theorem probability_node {table : List PairRow} (hs : table.Pairwise fun a b => a.energy < b.energy)
    {T : ℝ} {g : PairRow → List ℝ} (hT : TableTemperature T g) {i : ℕ} (hi : i < table.length)
    (k : ℕ) : probabilityOfPairs table table[i].energy T k = some ((g table[i]).getD k 0) := by
  unfold probabilityOfPairs
  simp only [tempInterp_temperature hT fun l => l.getD k 0]
  have inc : Increasing (table.map fun r => (r.energy, (g r).getD k 0)) := by
    unfold Increasing
    rw [List.pairwise_map]
    exact hs.imp le_of_lt
  have h := C52_node inc none none (i := i) (by simpa using hi) (fun hi' => by
    simp only [List.getElem_map]
    exact List.pairwise_iff_getElem.1 hs i (i + 1) (by omega) (by simpa using hi') (by omega))
  simpa using h

theorem pairProbabilities_node {table : List PairRow}
    (hs : table.Pairwise fun a b => a.energy < b.energy) {num : ℕ}
    {T : ℝ} {g : PairRow → List ℝ} (hT : TableTemperature T g) {i : ℕ} (hi : i < table.length)
    (hl : (g table[i]).length = num) :
    pairProbabilities table num table[i].energy T = g table[i] := by
  apply List.ext_getElem
  · simp [pairProbabilities, hl]
  · intro k h1 h2
    simp [pairProbabilities, probability_node hs hT hi, List.getD_eq_getElem?_getD,
      List.getElem?_eq_getElem h2]

/-- **C58**: at the energies and temperatures of the tables, `quantum_yield_ideal` is the mean of
the number of pairs. -/
theorem C58_yield_partial {table : List PairRow}
    (hs : table.Pairwise fun a b => a.energy < b.energy) {num : ℕ}
    {T : ℝ} {g : PairRow → List ℝ} (hT : TableTemperature T g) {i : ℕ} (hi : i < table.length)
    (hp : table[i].Proper num) (hE : table[i].energy ≠ 0) :
    pairMean num (distributionOf (pairProbabilities table num table[i].energy T)) (fun k => k)
      = quantumYieldIdeal table table[i].energy T := by
  have hd := hp.of hT
  rw [pairProbabilities_node hs hT hi hd.length, ← rowMean_eq hd.length]
  have hm : rowMean (g table[i]) ≠ 0 := by
    rw [rowMean_eq hd.length]
    have := hd.mean_ge_one
    linarith
  have hW : energyPair table table[i].energy T = some (table[i].energy / rowMean (g table[i])) := by
    unfold energyPair
    simp only [energyPair_table hT]
    have h := interpInf_node (t := table.map fun r => (r.energy, div? r.energy (rowMean (g r))))
      (by rw [List.pairwise_map]; exact hs) (some (some (energyPairInf T))) (i := i)
      (by simpa using hi)
    simp only [List.getElem_map] at h
    rw [h, div?_of_ne hm]
  unfold quantumYieldIdeal
  rw [hW]
  field_simp

/-- **C58**: and `fano_factor` is the variance of the number of pairs divided by its mean. -/
theorem C58_fano_partial {table : List PairRow}
    (hs : table.Pairwise fun a b => a.energy < b.energy) {num : ℕ}
    {T : ℝ} {g : PairRow → List ℝ} (hT : TableTemperature T g) {i : ℕ} (hi : i < table.length)
    (hp : table[i].Proper num) :
    let p := distributionOf (pairProbabilities table num table[i].energy T)
    ∃ F, fanoFactor table table[i].energy T = some F
      ∧ pairMean num p (fun k => (k : ℝ) ^ 2) - pairMean num p (fun k => k) ^ 2
        = F * pairMean num p (fun k => k) := by
  have hd := hp.of hT
  intro p
  have hpe : p = distributionOf (g table[i]) := by
    simp only [p]
    rw [pairProbabilities_node hs hT hi hd.length]
  have hm : rowMean (g table[i]) ≠ 0 := by
    rw [rowMean_eq hd.length]
    have := hd.mean_ge_one
    linarith
  have hnode : ∀ (right : Option (Option ℝ)) (f : PairRow → Option ℝ),
      interpInf right (table.map fun r => (r.energy, f r)) table[i].energy = f table[i] := by
    intro right f
    have h := interpInf_node (t := table.map fun r => (r.energy, f r))
      (by rw [List.pairwise_map]; exact hs) right (i := i) (by simpa using hi)
    simpa using h
  refine ⟨(rowMeanSq (g table[i]) - rowMean (g table[i]) ^ 2) / rowMean (g table[i]), ?_, ?_⟩
  · unfold fanoFactor
    simp only [hnode]
    rw [interpInf_temperature hT rowFano]
    unfold rowFano
    rw [div?_of_ne hm]
  · rw [hpe, ← rowMean_eq hd.length, ← rowMeanSq_eq hd.length]
    field_simp

/-- **C58**: above the tables, the quantum yield is the energy divided by the energy of a pair,
which is the mean that the simulation uses. -/
theorem C58_high {table : List PairRow} (hs : table.Pairwise fun a b => a.energy ≤ b.energy)
    (hne : table ≠ []) {E : ℝ} (hE : (table.getLast hne).energy < E) (T : ℝ) :
    quantumYieldIdeal table E T = E / energyPairInf T := by
  obtain ⟨r, l, rfl⟩ := List.exists_cons_of_ne_nil hne
  have h0 : r.energy ≤ ((r :: l).getLast hne).energy := by
    rw [List.getLast_eq_getElem]
    rcases Nat.eq_zero_or_pos l.length with h | h
    · have : l = [] := List.length_eq_zero_iff.1 h
      subst this
      simp
    · exact List.pairwise_iff_getElem.1 hs 0 _ (by simp) (by simp) (by simpa using h)
  have hW : energyPair (r :: l) E T = some (energyPairInf T) := by
    unfold energyPair
    generalize hf : (fun r : PairRow => (r.energy, interpInf none
        [(0, div? r.energy (rowMean r.p0)), (100, div? r.energy (rowMean r.p100)),
          (300, div? r.energy (rowMean r.p300))] T)) = f
    have hf1 : ∀ r, (f r).1 = r.energy := fun r => by rw [← hf]
    have hlast : (((r :: l).map f).getLast (by simp)).1 < E := by
      rw [List.getLast_map, hf1]
      exact hE
    simp only [List.map_cons] at hlast ⊢
    unfold interpInf
    dsimp only
    have h2 : ¬ E < (f r).1 := by rw [hf1]; linarith
    rw [if_neg h2, if_pos hlast]
    rfl
  unfold quantumYieldIdeal
  rw [hW]

/-- **C58**: the simulation of photons above the tables uses the same energy of a pair. -/
theorem C58_high_simulation {table : List PairRow}
    (hs : table.Pairwise fun a b => a.energy ≤ b.energy) (hne : table ≠ [])
    (h1 : (table.getLast hne).energy < 1000) {T : ℝ} (hT : energyPairInf T ≠ 0) (num k : ℕ)
    {E : ℝ} (hE : (table.getLast hne).energy < E) (a W η D f x y : ℝ) :
    E / (pixelParams table num k E T a W η D f x y).energyPairInf = quantumYieldIdeal table E T := by
  rw [C58_high hs hne hE]
  simp only [pixelParams]
  rw [C58_high hs hne h1]
  field_simp

/-- **C58** fails between the temperatures of the tables: the mean number of pairs interpolates the
means, the quantum yield their inverses.  Here the mean is 1 at 0 K and 2 at 100 K; at 50 K the
simulation has the mean 3/2, the quantum yield is 4/3. -/
theorem C58_between_counterexample :
    let row : PairRow := ⟨2, [1, 0], [0, 1], [0, 1]⟩
    row.Proper 2 ∧ pairMean 2 (distributionOf (pairProbabilities [row] 2 2 50)) (fun k => k) = 3 / 2
      ∧ quantumYieldIdeal [row] 2 50 = 4 / 3 := by
  intro row
  refine ⟨⟨⟨rfl, ?_, by norm_num [row]⟩, ⟨rfl, ?_, by norm_num [row]⟩,
    ⟨rfl, ?_, by norm_num [row]⟩⟩, ?_, ?_⟩
  · intro k; rcases k with _ | _ | k <;> norm_num [row]
  · intro k; rcases k with _ | _ | k <;> norm_num [row]
  · intro k; rcases k with _ | _ | k <;> norm_num [row]
  · norm_num [pairMean, Finset.sum_range_succ, distributionOf, pairProbabilities,
      probabilityOfPairs, interp, interpFrom, tempInterp, row, List.range_succ]
  · norm_num [quantumYieldIdeal, energyPair, interpInf, interpInfFrom, lerpInf, rowMean, row,
      List.range_succ, div?]

/-! ### C59 -/

theorem pairNumber_low {table : List PairRow} {num : ℕ} {E T : ℝ} (hE : E ≤ 50) (k : ℕ)
    (a W η D f x y : ℝ) (r : PhotonDraw) :
    pairNumber (pixelParams table num k E T a W η D f x y) r
      = ((List.range num).map fun k : ℕ => (k : ℤ) + 1)[
        pairIndex (cumsum (pairProbabilities table num E T)) r.pair]? := if_pos hE

/-- **C59**: if the probabilities are a distribution, the number of pairs of a photon is one that has
a positive probability.  Missing: energies at which the tables are empty, see
`C59_below_gap_counterexample`. -/
theorem C59_possible_partial {table : List PairRow} {num : ℕ} {E T : ℝ} (hE : E ≤ 50)
    (hd : IsDistribution num (pairProbabilities table num E T)) (k : ℕ) (a W η D f x y : ℝ)
    {r : PhotonDraw} (h0 : 0 ≤ r.pair) (h1 : r.pair < 1) :
    ∃ n : ℕ, pairNumber (pixelParams table num k E T a W η D f x y) r = some (n : ℤ)
      ∧ 1 ≤ n ∧ n ≤ num ∧ 0 < distributionOf (pairProbabilities table num E T) n := by
  set pn := pairProbabilities table num E T with hpn
  have hp : ∀ q ∈ pn, 0 ≤ q := by
    intro q hq
    obtain ⟨j, hj, rfl⟩ := List.getElem_of_mem hq
    have := hd.nonneg j
    rwa [List.getD_eq_getElem?_getD, List.getElem?_eq_getElem hj] at this
  obtain ⟨h2, h3⟩ := (C45_pairs hp hd.sum h0 h1 _).1 rfl
  set j := pairIndex (cumsum pn) r.pair with hj
  have hlt : j < num := by
    by_contra hcon
    have hle : pn.length ≤ j := by rw [hd.length]; omega
    rw [List.take_of_length_le hle, hd.sum] at h2
    linarith
  refine ⟨j + 1, ?_, by omega, by omega, ?_⟩
  · rw [pairNumber_low hE, ← hpn, ← hj]
    simp [hlt]
  · have hlt' : j < pn.length := by rw [hd.length]; exact hlt
    rw [List.take_add_one, List.getElem?_eq_getElem hlt', List.sum_append] at h3
    simp only [distributionOf, List.getD_eq_getElem?_getD, List.getElem?_eq_getElem hlt']
    simp at h3 ⊢
    linarith

/-- **C59** fails below the gap: if a row of the table is empty, as at 1.1 eV, a photon of this
energy (or less, for the first row) creates the largest number of pairs in the table, 20, whatever
the random numbers, although the quantum yield is zero. -/
theorem C59_below_gap_counterexample {num : ℕ} (hnum : 0 < num) {row : PairRow}
    {table : List PairRow} (hs : (row :: table).Pairwise fun a b => a.energy < b.energy)
    {T : ℝ} {g : PairRow → List ℝ} (hT : TableTemperature T g)
    (hzero : ∀ k, (g row).getD k 0 = 0) {E : ℝ} (hE : E ≤ row.energy) (hE50 : E ≤ 50) (k : ℕ)
    (a W η D f x y : ℝ) {r : PhotonDraw} (h0 : 0 ≤ r.pair) :
    quantumYieldIdeal (row :: table) E T = 0
      ∧ pairNumber (pixelParams (row :: table) num k E T a W η D f x y) r = some (num : ℤ) := by
  constructor
  · have hm : rowMean (g row) = 0 := by
      unfold rowMean
      simp [List.getD_eq_getElem?_getD] at hzero
      simp [hzero]
    have hW : energyPair (row :: table) E T = none := by
      unfold energyPair
      simp only [energyPair_table hT]
      rcases eq_or_lt_of_le hE with rfl | hlt
      · have h := interpInf_node
          (t := (row :: table).map fun r => (r.energy, div? r.energy (rowMean (g r))))
          (by rw [List.pairwise_map]; exact hs) (some (some (energyPairInf T))) (i := 0) (by simp)
        simp only [List.map_cons, List.getElem_cons_zero] at h
        rw [List.map_cons, h, hm, div?, if_pos rfl]
      · simp only [List.map_cons, interpInf, if_pos hlt, hm]
        simp [div?]
    unfold quantumYieldIdeal
    rw [hW]
  · have hp : pairProbabilities (row :: table) num E T = List.replicate num 0 := by
      unfold pairProbabilities
      apply List.ext_getElem
      · simp
      · intro j h1 h2
        simp only [List.getElem_map, List.getElem_range, List.getElem_replicate]
        rcases eq_or_lt_of_le hE with rfl | hlt
        · have := probability_node hs hT (i := 0) (by simp) j
          simp only [List.getElem_cons_zero] at this
          rw [this, hzero]; rfl
        · unfold probabilityOfPairs
          simp only [tempInterp_temperature hT fun l => l.getD j 0]
          simp only [List.map_cons]
          rw [C52_left hlt, Option.getD_some, hzero]
    rw [pairNumber_low hE50, hp]
    have hidx : pairIndex (cumsum (List.replicate num (0 : ℝ))) r.pair = num - 1 := by
      unfold pairIndex
      have : (cumsum (List.replicate num (0 : ℝ))).findIdx? (fun c => decide (r.pair < c)) = none := by
        rw [List.findIdx?_eq_none_iff]
        intro c hc
        simp only [cumsum, List.mem_map, List.take_replicate, List.sum_replicate, smul_zero] at hc
        obtain ⟨_, _, rfl⟩ := hc
        simpa using h0
      rw [this]
      simp [cumsum]
    rw [hidx]
    have : num - 1 < num := by omega
    simp [this]
    omega

/-- **C58**: the gap of silicon is 1.1692 eV at absolute zero and narrows as the temperature rises; the
energy per pair falls and the Fano factor rises. -/
theorem C58_band_gap {T T' : ℝ} (h0 : 0 ≤ T) (h : T < T') :
    energyBandgap 0 = 1.1692 ∧ energyBandgap T' < energyBandgap T
      ∧ energyPairInf T' < energyPairInf T ∧ fanoFactorInf T < fanoFactorInf T' := by
  have key : energyBandgap T' < energyBandgap T := by
    unfold energyBandgap
    have h1 : 0 < T + 655 := by linarith
    have h2 : 0 < T' + 655 := by linarith
    have : 4.9e-4 * T ^ 2 / (T + 655) < 4.9e-4 * T' ^ 2 / (T' + 655) := by
      rw [div_lt_div_iff₀ h1 h2]
      have : T ^ 2 * (T' + 655) < T' ^ 2 * (T + 655) := by
        nlinarith [mul_nonneg h0 (h0.trans h.le)]
      nlinarith
    linarith
  refine ⟨by norm_num [energyBandgap], key, ?_, ?_⟩
  · unfold energyPairInf; linarith
  · unfold fanoFactorInf; linarith

/-- At room temperature the gap is 1.12 eV. -/
example : |energyBandgap 300 - 1.123| < 0.001 := by
  unfold energyBandgap
  rw [abs_lt]; constructor <;> norm_num

end Optika
