import Verif.Lemmas.Electrons
import Mathlib.MeasureTheory.Measure.Lebesgue.Basic

/-!
# Simulated electrons (C43–C45)
-/

namespace Optika
open MeasureTheory

/-! ### C45: the distributions of depth and number of pairs -/

theorem one_sub_exp_neg_pos {x : ℝ} (h : 0 < x) : 0 < 1 - Real.exp (-x) := by
  have : Real.exp (-x) < 1 := by rw [Real.exp_lt_one_iff]; linarith
  linarith

/-- The cumulative distribution of the depth of absorption in a slab of thickness `D`: exponential
conditioned on being below `D`, uniform without absorption. -/
noncomputable def depthCdf (a D t : ℝ) : ℝ :=
  if 0 < a then (1 - Real.exp (-(a * t))) / (1 - Real.exp (-(a * D))) else t / D

/-- **C45**: the depth is at most `t` exactly for random numbers up to the cumulative distribution
at `t`. -/
theorem C45_depth_cdf {a D y : ℝ} (t : ℝ) (hD : 0 < D) (hy0 : 0 ≤ y) (hy1 : y < 1) :
    absorptionDepth a D y ≤ t ↔ y ≤ depthCdf a D t := by
  unfold absorptionDepth depthCdf
  by_cases ha : 0 < a
  · simp only [if_pos ha]
    have hF := one_sub_exp_neg_pos (mul_pos ha hD)
    rw [neg_mul a D]
    set F := 1 - Real.exp (-(a * D)) with hFdef
    have hF1 : F < 1 := by have := Real.exp_pos (-(a * D)); rw [hFdef]; linarith
    have harg : 0 < 1 - y * F := by nlinarith
    rw [le_div_iff₀ hF]
    have e : -(1 / a) * Real.log (1 - y * F) ≤ t ↔ -(a * t) ≤ Real.log (1 - y * F) := by
      have : -(1 / a) * Real.log (1 - y * F) = (-Real.log (1 - y * F)) / a := by ring
      rw [this, div_le_iff₀ ha]
      constructor <;> intro h <;> linarith
    rw [e, Real.le_log_iff_exp_le harg]
    constructor <;> intro h <;> linarith
  · simp only [if_neg ha]
    rw [le_div_iff₀ hD]

/-- **C45**: the depth is within the substrate. -/
theorem C45_depth_range {a D y : ℝ} (hD : 0 < D) (hy0 : 0 ≤ y) (hy1 : y < 1) :
    0 ≤ absorptionDepth a D y ∧ absorptionDepth a D y < D := by
  unfold absorptionDepth
  by_cases ha : 0 < a
  · simp only [if_pos ha]
    have hF := one_sub_exp_neg_pos (mul_pos ha hD)
    rw [neg_mul a D]
    have hE := Real.exp_pos (-(a * D))
    have harg : Real.exp (-(a * D)) < 1 - y * (1 - Real.exp (-(a * D))) := by nlinarith
    have h1 : 1 - y * (1 - Real.exp (-(a * D))) ≤ 1 := by nlinarith
    have hl := Real.log_nonpos (by linarith) h1
    have hl2 := (Real.lt_log_iff_exp_lt (lt_trans hE harg)).2 harg
    have e : ∀ x : ℝ, -(1 / a) * x = (-x) / a := fun x => by ring
    rw [e]
    exact ⟨div_nonneg (by linarith) ha.le, by rw [div_lt_iff₀ ha]; linarith⟩
  · simp only [if_neg ha]
    constructor <;> nlinarith

/-- It is a probability. -/
theorem depthCdf_range {a D t : ℝ} (hD : 0 < D) (h0 : 0 ≤ t) (h1 : t ≤ D) :
    0 ≤ depthCdf a D t ∧ depthCdf a D t ≤ 1 := by
  unfold depthCdf
  split_ifs with ha
  · have hF := one_sub_exp_neg_pos (mul_pos ha hD)
    constructor
    · apply div_nonneg _ hF.le
      have : Real.exp (-(a * t)) ≤ 1 := by
        rw [Real.exp_le_one_iff]; have := mul_nonneg ha.le h0; linarith
      linarith
    · rw [div_le_one hF]
      have : Real.exp (-(a * D)) ≤ Real.exp (-(a * t)) := by
        rw [Real.exp_le_exp]; have := mul_le_mul_of_nonneg_left h1 ha.le; linarith
      linarith
  · exact ⟨by positivity, by rw [div_le_one hD]; exact h1⟩

/-- **C45**: for a uniform random number the probability of a depth up to `t` is the truncated
exponential distribution. -/
theorem C45_depth_probability {a D t : ℝ} (hD : 0 < D) (h0 : 0 ≤ t) (h1 : t < D) :
    volume {y : ℝ | y ∈ Set.Ico 0 1 ∧ absorptionDepth a D y ≤ t}
      = ENNReal.ofReal (depthCdf a D t) := by
  have hr := depthCdf_range (a := a) hD h0 h1.le
  by_cases h : depthCdf a D t < 1
  · have : {y : ℝ | y ∈ Set.Ico 0 1 ∧ absorptionDepth a D y ≤ t} = Set.Icc 0 (depthCdf a D t) := by
      ext y
      simp only [Set.mem_setOf_eq, Set.mem_Ico, Set.mem_Icc]
      constructor
      · rintro ⟨⟨h2, h3⟩, h4⟩
        exact ⟨h2, (C45_depth_cdf t hD h2 h3).1 h4⟩
      · rintro ⟨h2, h3⟩
        exact ⟨⟨h2, by linarith⟩, (C45_depth_cdf t hD h2 (by linarith)).2 h3⟩
    rw [this, Real.volume_Icc, sub_zero]
  · have e : depthCdf a D t = 1 := le_antisymm hr.2 (not_lt.1 h)
    have : {y : ℝ | y ∈ Set.Ico 0 1 ∧ absorptionDepth a D y ≤ t} = Set.Ico 0 1 := by
      ext y
      simp only [Set.mem_setOf_eq, and_iff_left_iff_imp]
      rintro ⟨h2, h3⟩
      exact (C45_depth_cdf t hD h2 h3).2 (by rw [e]; exact h3.le)
    rw [this, Real.volume_Ico, e, sub_zero]

theorem take_sum_mono {pn : List ℝ} (hp : ∀ q ∈ pn, 0 ≤ q) :
    Monotone fun k => (pn.take k).sum := by
  refine monotone_nat_of_le_succ fun k => ?_
  by_cases hk : k < pn.length
  · rw [List.take_add_one, List.getElem?_eq_getElem hk, List.sum_append]
    simpa using hp _ (List.getElem_mem hk)
  · rw [List.take_of_length_le (by omega), List.take_of_length_le (by omega)]

theorem cumsum_getElem {pn : List ℝ} {k : ℕ} (hk : k < (cumsum pn).length) :
    (cumsum pn)[k] = (pn.take (k + 1)).sum := by
  simp [cumsum]

theorem length_cumsum (pn : List ℝ) : (cumsum pn).length = pn.length := by simp [cumsum]

/-- **C45**: for a table of probabilities, entry `k` of the table is chosen exactly for random
numbers in the `k`-th of the consecutive intervals whose lengths are the probabilities. -/
theorem C45_pairs {pn : List ℝ} (hp : ∀ q ∈ pn, 0 ≤ q) (hs : pn.sum = 1) {x : ℝ} (h0 : 0 ≤ x)
    (h1 : x < 1) (k : ℕ) :
    pairIndex (cumsum pn) x = k ↔ (pn.take k).sum ≤ x ∧ x < (pn.take (k + 1)).sum := by
  have hm := take_sum_mono hp
  have hne : 0 < pn.length := by
    rcases pn with _ | ⟨q, pn⟩
    · simp at hs
    · simp
  have main : (pn.take (pairIndex (cumsum pn) x)).sum ≤ x
      ∧ x < (pn.take (pairIndex (cumsum pn) x + 1)).sum := by
    unfold pairIndex
    split
    · rename_i k hk
      rw [List.findIdx?_eq_some_iff_getElem] at hk
      obtain ⟨hk, h2, h3⟩ := hk
      rw [cumsum_getElem, decide_eq_true_eq] at h2
      refine ⟨?_, h2⟩
      rcases k with _ | k
      · simpa using h0
      · have := h3 k (by omega)
        rw [cumsum_getElem, decide_eq_true_eq] at this
        linarith
    · rename_i hk
      rw [List.findIdx?_eq_none_iff] at hk
      have hl : pn.length - 1 < (cumsum pn).length := by rw [length_cumsum]; omega
      have := hk _ (List.getElem_mem hl)
      rw [cumsum_getElem, decide_eq_false_iff_not, List.take_of_length_le (by omega), hs] at this
      exact absurd h1 this
  constructor
  · rintro rfl; exact main
  · rintro ⟨h2, h3⟩
    obtain ⟨h4, h5⟩ := main
    rcases lt_trichotomy (pairIndex (cumsum pn) x) k with h | h | h
    · have := hm (show pairIndex (cumsum pn) x + 1 ≤ k by omega)
      dsimp only at this; linarith
    · exact h
    · have := hm (show k + 1 ≤ pairIndex (cumsum pn) x by omega)
      dsimp only at this; linarith

/-- **C45**: for a uniform random number the probability of entry `k` is the tabulated one. -/
theorem C45_pairs_probability {pn : List ℝ} (hp : ∀ q ∈ pn, 0 ≤ q) (hs : pn.sum = 1) {k : ℕ}
    (hk : k < pn.length) :
    volume {x : ℝ | x ∈ Set.Ico 0 1 ∧ pairIndex (cumsum pn) x = k} = ENNReal.ofReal pn[k] := by
  have hm := take_sum_mono hp
  have h0 := hm (Nat.zero_le k)
  have h1 := hm (show k + 1 ≤ pn.length by omega)
  simp only [List.take_zero, List.sum_nil, List.take_length, hs] at h0 h1
  have e : {x : ℝ | x ∈ Set.Ico 0 1 ∧ pairIndex (cumsum pn) x = k}
      = Set.Ico (pn.take k).sum (pn.take (k + 1)).sum := by
    ext x
    simp only [Set.mem_setOf_eq, Set.mem_Ico]
    constructor
    · rintro ⟨⟨h2, h3⟩, h4⟩
      exact (C45_pairs hp hs h2 h3 k).1 h4
    · rintro ⟨h2, h3⟩
      exact ⟨⟨by linarith, by linarith⟩, (C45_pairs hp hs (by linarith) (by linarith) k).2 ⟨h2, h3⟩⟩
  rw [e, Real.volume_Ico, List.take_add_one, List.getElem?_eq_getElem hk, List.sum_append]
  simp

/-- **C45**: the probability of collection is between that of the back surface and one. -/
theorem C45_efficiency_range {h0 W z : ℝ} (h : 0 ≤ h0) (h' : h0 ≤ 1) (hz : 0 ≤ z) :
    h0 ≤ sternEfficiency h0 W z ∧ sternEfficiency h0 W z ≤ 1 := by
  unfold sternEfficiency
  split_ifs with hW
  · have hW0 : 0 < W := lt_of_le_of_lt hz hW
    have : z / W ≤ 1 := by rw [div_le_one hW0]; exact hW.le
    have : 0 ≤ z / W := by positivity
    rw [mul_div_assoc]
    constructor <;> nlinarith
  · exact ⟨h', le_rfl⟩

/-! ### C43: charge is conserved -/

/-- **C43**: with `wrap`, whatever the random numbers are, the charge of the image is the number of
collected electrons. -/
theorem C43_wrap {numX numY : ℕ} {s : ℕ → ℕ → PixelParams} {draw : ℕ → ℕ → ℕ → PhotonDraw}
    {image : ℕ × ℕ → ℕ} (h : frameImage true numX numY s draw = some image) :
    ∑ x ∈ Finset.range numX, ∑ y ∈ Finset.range numY, image (x, y)
      = ∑ x ∈ Finset.range numX, ∑ y ∈ Finset.range numY,
        ∑ j ∈ Finset.range (s x y).numPhoton, collected (s x y) (draw x y j) := by
  unfold frameImage at h
  rw [Option.map_eq_some_iff] at h
  obtain ⟨L, hL, rfl⟩ := h
  rw [← frameEvents_length hL, ← Finset.sum_product', sum_foldl_deposit]
  · simp only [Finset.sum_const_zero, zero_add]
    rw [List.countP_eq_length]
    intro o ho
    obtain ⟨-, -, x, y, d, rfl⟩ := frameEvents_mem hL ho
    simp [electronTarget]
  · intro c hc
    obtain ⟨h1, h2, x, y, d, e⟩ := frameEvents_mem hL hc
    simpa using electronTarget_mem h1 h2 e.symm

/-- **C43**: without `wrap` charge may be lost at the edges but none is created; what is lost is
the electrons that leave the sensor. -/
theorem C43_no_wrap {numX numY : ℕ} {s : ℕ → ℕ → PixelParams} {draw : ℕ → ℕ → ℕ → PhotonDraw}
    {image : ℕ × ℕ → ℕ} (h : frameImage false numX numY s draw = some image) :
    ∑ x ∈ Finset.range numX, ∑ y ∈ Finset.range numY, image (x, y)
      ≤ ∑ x ∈ Finset.range numX, ∑ y ∈ Finset.range numY,
        ∑ j ∈ Finset.range (s x y).numPhoton, collected (s x y) (draw x y j) := by
  unfold frameImage at h
  rw [Option.map_eq_some_iff] at h
  obtain ⟨L, hL, rfl⟩ := h
  rw [← frameEvents_length hL, ← Finset.sum_product', sum_foldl_deposit]
  · simp only [Finset.sum_const_zero, zero_add]
    exact List.countP_le_length
  · intro c hc
    obtain ⟨h1, h2, x, y, d, e⟩ := frameEvents_mem hL hc
    simpa using electronTarget_mem h1 h2 e.symm

/-- **C43**: no charge outside the grid. -/
theorem C43_outside {wrap : Bool} {numX numY : ℕ} {s : ℕ → ℕ → PixelParams}
    {draw : ℕ → ℕ → ℕ → PhotonDraw} {image : ℕ × ℕ → ℕ}
    (h : frameImage wrap numX numY s draw = some image) {x y : ℕ} (hxy : numX ≤ x ∨ numY ≤ y) :
    image (x, y) = 0 := by
  unfold frameImage at h
  rw [Option.map_eq_some_iff] at h
  obtain ⟨L, hL, rfl⟩ := h
  rw [foldl_deposit, zero_add, List.count_eq_zero]
  intro hc
  obtain ⟨h1, h2, x', y', d, e⟩ := frameEvents_mem hL hc
  have := electronTarget_mem h1 h2 e.symm
  omega

/-- **C43**: without diffusion (no field-free region, or pixels without width) each pixel holds
exactly the electrons collected from its own photons, with and without `wrap`. -/
theorem C43_local {wrap : Bool} {numX numY : ℕ} {s : ℕ → ℕ → PixelParams}
    {draw : ℕ → ℕ → ℕ → PhotonDraw} {image : ℕ × ℕ → ℕ}
    (h : frameImage wrap numX numY s draw = some image)
    (hd : ∀ x < numX, ∀ y < numY, ∀ j < (s x y).numPhoton, ∀ z m,
      photonOutcome (s x y) (draw x y j) = some (z, m) →
      (s x y).thicknessSubstrate - (s x y).thicknessDepletion ≤ z
        ∨ (s x y).widthX ≤ 0 ∨ (s x y).widthY ≤ 0)
    {x y : ℕ} (hx : x < numX) (hy : y < numY) :
    image (x, y) = ∑ j ∈ Finset.range (s x y).numPhoton, collected (s x y) (draw x y j) := by
  unfold frameImage at h
  rw [Option.map_eq_some_iff] at h
  obtain ⟨L, hL, rfl⟩ := h
  rw [foldl_deposit, zero_add]
  obtain ⟨rfl, h2⟩ := frameEvents_eq hL
  have key : ∀ x' < numX, ∀ y' < numY, ∀ j < (s x' y').numPhoton,
      ((photonEvents wrap numX numY (s x' y') x' y' (draw x' y' j)).getD []).count (some (x, y))
        = if x' = x ∧ y' = y then collected (s x' y') (draw x' y' j) else 0 := by
    intro x' hx' y' hy' j hj
    obtain ⟨z, hz, e⟩ := photonEvents_eq (h2 x' hx' y' hy' j hj)
    have hdisp : ∀ k, displacement (s x' y') (draw x' y' j) z k = (0, 0) := by
      intro k
      unfold displacement
      rw [if_neg]
      rintro ⟨h1, h3, h4⟩
      rcases hd x' hx' y' hy' j hj z _ hz with h | h | h <;> linarith
    rw [e, Option.getD_some]
    simp only [hdisp, electronTarget_zero hx' hy', List.map_const', List.length_range,
      List.count_replicate]
    congr 1
    simp
  rw [List.count_flatMap, list_range_sum, Finset.sum_eq_single x]
  · simp only [Function.comp]
    rw [List.count_flatMap, list_range_sum, Finset.sum_eq_single y]
    · simp only [Function.comp]
      rw [List.count_flatMap, list_range_sum]
      refine Finset.sum_congr rfl fun j hj => ?_
      simp [key x hx y hy j (Finset.mem_range.1 hj)]
    · intro y' hy' hne
      simp only [Function.comp]
      rw [List.count_flatMap, list_range_sum]
      refine Finset.sum_eq_zero fun j hj => ?_
      simp only [Function.comp]
      rw [key x hx y' (Finset.mem_range.1 hy') j (Finset.mem_range.1 hj), if_neg]
      exact fun h => hne h.2
    · intro h; exact absurd (Finset.mem_range.2 hy) h
  · intro x' hx' hne
    simp only [Function.comp]
    rw [List.count_flatMap, list_range_sum]
    refine Finset.sum_eq_zero fun y' hy' => ?_
    simp only [Function.comp]
    rw [List.count_flatMap, list_range_sum]
    refine Finset.sum_eq_zero fun j hj => ?_
    simp only [Function.comp]
    rw [key x' (Finset.mem_range.1 hx') y' (Finset.mem_range.1 hy') j (Finset.mem_range.1 hj), if_neg]
    exact fun h => hne h.1
  · intro h; exact absurd (Finset.mem_range.2 hx) h

/-- At most as many electrons are collected as pairs are created. -/
theorem C43_collected_le {s : PixelParams} {r : PhotonDraw} {n : ℤ}
    (hn : pairNumber s r = some n) : (collected s r : ℤ) ≤ max n 0 := by
  unfold collected photonOutcome
  simp only [hn, Option.bind_eq_bind, Option.bind_some, Option.pure_def]
  unfold binomial?
  split
  · simp
  · rename_i h
    push Not at h
    simp only [Option.bind_some, Option.map_some, Option.getD_some]
    have := List.countP_le_length (l := List.range n.toNat)
      (p := fun k => decide (r.trial k < sternEfficiency s.cceBacksurface s.thicknessImplant
        (absorptionDepth s.absorption s.thicknessSubstrate r.depth)))
    rw [List.length_range] at this
    omega

/-- The simulation succeeds for photons of low energy and a table of probabilities of
non-negative numbers of pairs. -/
theorem C43_defined {wrap : Bool} {numX numY : ℕ} {s : ℕ → ℕ → PixelParams}
    {draw : ℕ → ℕ → ℕ → PhotonDraw}
    (hs : ∀ x < numX, ∀ y < numY, (s x y).energy ≤ 50 ∧ (s x y).pn ≠ []
      ∧ (s x y).n.length = (s x y).pn.length ∧ (∀ n ∈ (s x y).n, 0 ≤ n)
      ∧ 0 ≤ (s x y).cceBacksurface ∧ (s x y).cceBacksurface ≤ 1 ∧ 0 < (s x y).thicknessSubstrate)
    (hd : ∀ x y j, 0 ≤ (draw x y j).depth ∧ (draw x y j).depth < 1) :
    ∃ image, frameImage wrap numX numY s draw = some image := by
  rw [← Option.isSome_iff_exists]
  unfold frameImage
  rw [Option.isSome_map]
  unfold frameEvents
  refine sequence_isSome fun o ho => ?_
  obtain ⟨x, hx, rfl⟩ := List.mem_map.1 ho
  refine sequence_isSome fun o ho => ?_
  obtain ⟨y, hy, rfl⟩ := List.mem_map.1 ho
  refine sequence_isSome fun o ho => ?_
  obtain ⟨j, hj, rfl⟩ := List.mem_map.1 ho
  obtain ⟨h1, h2, h3, h4, h5, h6, h7⟩ := hs x (List.mem_range.1 hx) y (List.mem_range.1 hy)
  generalize s x y = s at *
  obtain ⟨hd0, hd1⟩ := hd x y j
  generalize draw x y j = r at *
  have hk : pairIndex (cumsum s.pn) r.pair < s.n.length := by
    have : 0 < s.pn.length := List.length_pos_iff.2 h2
    unfold pairIndex
    split
    · rename_i k hk
      rw [List.findIdx?_eq_some_iff_getElem] at hk
      obtain ⟨hk, -⟩ := hk
      rw [length_cumsum] at hk
      omega
    · rw [length_cumsum]; omega
  have hz := (C45_depth_range (a := s.absorption) h7 hd0 hd1).1
  have hr := C45_efficiency_range (W := s.thicknessImplant) h5 h6 hz
  have hn := h4 _ (List.getElem_mem hk)
  unfold photonEvents photonOutcome pairNumber
  simp only [if_pos h1, List.getElem?_eq_getElem hk, Option.bind_eq_bind, Option.bind_some,
    Option.pure_def]
  unfold binomial?
  rw [if_neg]
  · simp
  · rintro (h | h | h) <;> linarith

/-- Two by two pixels of four photons each, with diffusion and partial collection. -/
example (draw : ℕ → ℕ → ℕ → PhotonDraw) (hd : ∀ x y j, 0 ≤ (draw x y j).depth ∧
    (draw x y j).depth < 1) :
    ∃ image, frameImage true 2 2 (fun _ _ => ⟨4, 10, 1, 1 / 2, 1 / 5, [1 / 4, 3 / 4], [2, 3],
      3.6, 0.1, 7, 5, 15, 15⟩) draw = some image :=
  C43_defined (fun _ _ _ _ => by refine ⟨?_, List.cons_ne_nil _ _, rfl, ?_, ?_, ?_, ?_⟩ <;> norm_num) hd

/-- A table of probabilities. -/
example : (∀ q ∈ [(1 / 4 : ℝ), 3 / 4], 0 ≤ q) ∧ [(1 / 4 : ℝ), 3 / 4].sum = 1 := by norm_num

/-- **C43**, without `axis_xy`: for a fully depleted sensor the result is the number of collected
electrons. -/
theorem C43_no_axes_partial {wrap : Bool} {s : PixelParams} {draw : ℕ → PhotonDraw} {m : ℕ}
    (h : electronsMeasuredNoAxes wrap s draw = some m)
    (hd : s.thicknessDepletion = s.thicknessSubstrate) (hD : 0 < s.thicknessSubstrate)
    (hy : ∀ j, 0 ≤ (draw j).depth ∧ (draw j).depth < 1) :
    m = ∑ j ∈ Finset.range s.numPhoton, collected s (draw j) := by
  unfold electronsMeasuredNoAxes at h
  rw [Option.map_eq_some_iff] at h
  obtain ⟨image, hi, rfl⟩ := h
  refine C43_local hi ?_ one_pos one_pos
  intro x _ y _ j _ z n hz
  left
  rw [hd, sub_self]
  unfold photonOutcome at hz
  simp only [Option.bind_eq_bind, Option.pure_def, Option.bind_eq_some_iff, Option.some.injEq,
    Prod.mk.injEq] at hz
  obtain ⟨_, _, _, _, rfl, _⟩ := hz
  exact (C45_depth_range hD (hy j).1 (hy j).2).1

/-- A pixel with a field-free region and a photon whose electron moves to the next pixel. -/
noncomputable def diffusingPixel : PixelParams :=
  ⟨1, 10, 0, 0, 1, [1], [1], 1, 0, 2, 1, 1, 1⟩

/-- See `diffusingPixel`. -/
noncomputable def diffusingDraw : PhotonDraw :=
  ⟨0, 0, 0, fun _ => 0, 0, 0, fun _ => 1, fun _ => 0⟩

theorem pyRound_intCast (n : ℤ) : pyRound n = n := by
  unfold pyRound
  simp

theorem diffusing_outcome : photonOutcome diffusingPixel diffusingDraw = some (0, 1) := by
  have h1 : pairNumber diffusingPixel diffusingDraw = some 1 := by
    simp [pairNumber, diffusingPixel, diffusingDraw, pairIndex, cumsum, List.range_succ,
      List.findIdx?_cons]
    norm_num
  unfold photonOutcome
  rw [h1]
  simp [absorptionDepth, sternEfficiency, binomial?, diffusingPixel, diffusingDraw]
  norm_num

theorem diffusing_displacement (e : ℕ) :
    displacement diffusingPixel diffusingDraw 0 e = (1, 0) := by
  have h1 := pyRound_intCast 1
  have h0 := pyRound_intCast 0
  push_cast at h0 h1
  simp only [displacement, diffusingPixel, diffusingDraw]
  norm_num [h0, h1]

/-- **C43** fails without `axis_xy`: "there is no charge diffusion", but the electrons that diffuse
out of the pixel are lost. -/
theorem C43_no_axes_counterexample :
    electronsMeasuredNoAxes false diffusingPixel (fun _ => diffusingDraw) = some 0
      ∧ collected diffusingPixel diffusingDraw = 1 := by
  constructor
  · unfold electronsMeasuredNoAxes frameImage frameEvents
    simp only [List.range_one, List.map_cons, List.map_nil, sequence, photonEvents,
      show diffusingPixel.numPhoton = 1 from rfl, diffusing_outcome, diffusing_displacement,
      Option.bind_eq_bind, Option.bind_some, Option.pure_def]
    simp [electronTarget, deposit]
  · unfold collected
    rw [diffusing_outcome]
    rfl

/-! ### C44: frames do not interfere -/

/-- **C44**: `events i` are the electrons of frame `i`, `schedule` is any interleaving of the reads
and writes of all frames (its restriction to each frame is the program of this frame).  The result
of each frame is the one it has on its own. -/
theorem C44_schedule {wrap : Bool} {numX numY : ℕ} {s : ℕ → ℕ → ℕ → PixelParams}
    {draw : ℕ → ℕ → ℕ → ℕ → PhotonDraw} {events : ℕ → List (Option (ℕ × ℕ))}
    (he : ∀ i, frameEvents wrap numX numY (s i) (draw i) = some (events i))
    {schedule : List ImageStep}
    (h : ∀ i, (schedule.filter fun st => decide (st.frame = i)) = frameSteps i (events i)) (i : ℕ) :
    frameImage wrap numX numY (s i) (draw i)
      = some ((schedule.foldl Machine.step Machine.init).result i) := by
  unfold frameImage
  rw [he i, run_filter i schedule Machine.init Machine.init rfl rfl, h i, run_frameSteps]
  rfl

/-- An interleaving of two frames with one electron each. -/
example : ∀ i, ([ImageStep.load 0 (0, 0), .load 1 (0, 0), .store 1 (0, 0), .store 0 (0, 0)].filter
    fun st => decide (st.frame = i))
    = frameSteps i (if i = 0 ∨ i = 1 then [some (0, 0)] else []) := by
  intro i
  by_cases h0 : i = 0
  · subst h0; rfl
  by_cases h1 : i = 1
  · subst h1; rfl
  rw [if_neg (by omega)]
  simp [frameSteps, ImageStep.frame, Ne.symm h0, Ne.symm h1]

end Optika
