import Verif.Model.RoundedSum
import Verif.Props.Rounding
import Mathlib.Topology.MetricSpace.Basic
import Mathlib.Algebra.Order.BigOperators.Group.Finset

/-!
# C112: effective areas, images and distortions with rounding errors
-/

namespace Optika
open Slot Finset
variable {P : Type*}

theorem adds_error [DecidableEq P] {u : ℝ} (hu : 0 ≤ u) {x : P → ℝ} {s : Finset P} {a : ℝ} (h : Adds u x s a) :
    |a - ∑ p ∈ s, x p| ≤ ((1 + u) ^ s.card - 1) * (s.card + ∑ p ∈ s, |x p|) := by
  induction h with
  | none => simp
  | one p =>
    simp only [sum_singleton, sub_self, abs_zero, card_singleton, pow_one]
    have := abs_nonneg (x p)
    have h1 : (1 + u - 1) = u := by ring
    rw [h1]
    positivity
  | @add s t a b c hs ht hst _ _ hc iha ihb =>
    rw [sum_union hst, sum_union hst, card_union_of_disjoint hst]
    set A := ∑ p ∈ s, |x p|
    set B := ∑ p ∈ t, |x p|
    have hA : |∑ p ∈ s, x p| ≤ A := abs_sum_le_sum_abs _ _
    have hB : |∑ p ∈ t, x p| ≤ B := abs_sum_le_sum_abs _ _
    set S := ∑ p ∈ s, x p
    set T := ∑ p ∈ t, x p
    have hm : 1 ≤ s.card := hs.card_pos
    have hn : 1 ≤ t.card := ht.card_pos
    set m := s.card
    set n := t.card
    have hq : (1 : ℝ) ≤ 1 + u := by linarith
    have hA0 : 0 ≤ A := (abs_nonneg _).trans hA
    have hB0 : 0 ≤ B := (abs_nonneg _).trans hB
    have h1 : (1 + u) ^ m ≤ (1 + u) ^ (m + n - 1) := pow_le_pow_right₀ hq (by omega)
    have h2 : (1 + u) ^ n ≤ (1 + u) ^ (m + n - 1) := pow_le_pow_right₀ hq (by omega)
    have h3 : (1 + u) ^ (m + n) = (1 + u) ^ (m + n - 1) * (1 + u) := by
      rw [← pow_succ]; congr 1; omega
    rw [h3]
    set Q := (1 + u) ^ (m + n - 1)
    have hm' : (1 : ℝ) ≤ m := by exact_mod_cast hm
    have hn' : (1 : ℝ) ≤ n := by exact_mod_cast hn
    have ha : |a - S| ≤ (Q - 1) * (m + A) := iha.trans (by gcongr)
    have hb : |b - T| ≤ (Q - 1) * (n + B) := ihb.trans (by gcongr)
    have hab : |a + b| ≤ |a - S| + |b - T| + (A + B) := by
      have : a + b = (a - S) + (b - T) + (S + T) := by ring
      rw [this]
      have h4 := abs_add_le ((a - S) + (b - T)) (S + T)
      have h5 := abs_add_le (a - S) (b - T)
      have h6 := abs_add_le S T
      linarith
    have hcc : |c - (S + T)| ≤ |c - (a + b)| + (|a - S| + |b - T|) := by
      have : c - (S + T) = (c - (a + b)) + ((a - S) + (b - T)) := by ring
      rw [this]
      have h4 := abs_add_le (c - (a + b)) ((a - S) + (b - T))
      have h5 := abs_add_le (a - S) (b - T)
      linarith
    have hQ : 1 ≤ Q := one_le_pow₀ hq
    have he := hc.error
    have hle : |c - (S + T)| ≤ u * (1 + (A + B)) + (1 + u) * (|a - S| + |b - T|) := by
      have := mul_le_mul_of_nonneg_left hab hu
      nlinarith
    have hsum : |a - S| + |b - T| ≤ (Q - 1) * (m + n + (A + B)) := by
      have : (Q - 1) * (m + n + (A + B)) = (Q - 1) * (m + A) + (Q - 1) * (n + B) := by ring
      rw [this]; linarith
    push_cast
    have h7 : u * (1 + (A + B)) ≤ u * (m + n + (A + B)) := by
      apply mul_le_mul_of_nonneg_left _ hu
      linarith
    have h8 := mul_le_mul_of_nonneg_left hsum (by linarith : 0 ≤ 1 + u)
    calc |c - (S + T)| ≤ u * (m + n + (A + B)) + (1 + u) * ((Q - 1) * (m + n + (A + B))) := by linarith
      _ = (Q * (1 + u) - 1) * (m + n + (A + B)) := by ring

/-- Sums are continuous. -/
theorem adds_near [DecidableEq P] (s : Finset P) (x : P → ℝ) {ε : ℝ} (hε : 0 < ε) :
    ∃ η > 0, ∀ u y a, 0 ≤ u → u < η → (∀ p ∈ s, |y p - x p| < η) → Adds u y s a → |a - ∑ p ∈ s, x p| < ε := by
  set C := (s.card : ℝ) + ∑ p ∈ s, (|x p| + 1)
  have hC : 0 ≤ C := add_nonneg (Nat.cast_nonneg _) (sum_nonneg fun p _ => by positivity)
  have hcont : ContinuousAt (fun v : ℝ => ((1 + v) ^ s.card - 1) * C + s.card * v) 0 := by fun_prop
  have h0 := hcont.eventually (gt_mem_nhds (by simpa using hε : (fun v : ℝ => ((1 + v) ^ s.card - 1) * C + s.card * v) 0 < ε))
  obtain ⟨d, hd, hball⟩ := Metric.eventually_nhds_iff.1 h0
  refine ⟨min (d / 2) 1, by positivity, fun u y a hu hlt hy ha => ?_⟩
  set η := min (d / 2) 1
  have hη : 0 < η := by positivity
  have hηd : η < d := lt_of_le_of_lt (min_le_left _ _) (by linarith)
  have hη1 : η ≤ 1 := min_le_right _ _
  have key := hball (y := η) (by rw [Real.dist_eq, sub_zero, abs_of_pos hη]; exact hηd)
  have h1 := adds_error hu ha
  have h2 : |∑ p ∈ s, y p - ∑ p ∈ s, x p| ≤ s.card * η := by
    rw [← sum_sub_distrib]
    refine (abs_sum_le_sum_abs _ _).trans ?_
    rw [← nsmul_eq_mul]
    exact sum_le_card_nsmul _ _ _ fun p hp => (hy p hp).le
  have h3 : (s.card : ℝ) + ∑ p ∈ s, |y p| ≤ C := by
    have : ∑ p ∈ s, |y p| ≤ ∑ p ∈ s, (|x p| + 1) := sum_le_sum fun p hp => by
      have := hy p hp
      have h4 := abs_add_le (y p - x p) (x p)
      rw [sub_add_cancel] at h4
      linarith
    simp only [C]
    linarith
  have h4 : (1 + u) ^ s.card - 1 ≤ (1 + η) ^ s.card - 1 := by gcongr
  have h5 : 0 ≤ (1 + η) ^ s.card - 1 := by
    have : 1 ≤ (1 + η) ^ s.card := one_le_pow₀ (by linarith)
    linarith
  have h6 : 0 ≤ (s.card : ℝ) + ∑ p ∈ s, |y p| :=
    add_nonneg (Nat.cast_nonneg _) (sum_nonneg fun p _ => abs_nonneg _)
  have h7 : ((1 + u) ^ s.card - 1) * (s.card + ∑ p ∈ s, |y p|) ≤ ((1 + η) ^ s.card - 1) * C :=
    mul_le_mul h4 h3 h6 h5
  have h8 : a - ∑ p ∈ s, x p = (a - ∑ p ∈ s, y p) + (∑ p ∈ s, y p - ∑ p ∈ s, x p) := by ring
  rw [h8]
  refine (abs_add_le _ _).trans_lt ?_
  have : ((1 + η) ^ s.card - 1) * C + s.card * η < ε := key
  linarith

/-- The rays of a field point, all of them. -/
theorem rays_near [Finite P] {ss : List Element} {r out : P → Ray}
    (h : ∀ p, propagateSurfaces (ss.map Element.surface) (r p) = some (out p)) (hc : ∀ p, ClearAll ss (r p))
    {ε : ℝ} (hε : 0 < ε) :
    ∃ η > 0, ∀ u (numbers : P → Slot → ℝ) (result : P → Option (Slot → ℝ)), 0 ≤ u → u < η →
      (∀ p s, |numbers p s - (r p).numbers s| < η) →
      (∀ p, Runs u (ss.flatMap Element.program) (numbers p) (result p)) →
      ∃ rays : P → Slot → ℝ, (∀ p, result p = some (rays p)) ∧ ∀ p s, |rays p s - (out p).numbers s| < ε := by
  choose η hη key using fun p => C112_system_partial ss (r p) (out p) (h p) (hc p) ε hε
  obtain ⟨m, hm, hle⟩ : ∃ m > 0, ∀ p, m ≤ η p := by
    have := Fintype.ofFinite P
    by_cases hP : Nonempty P
    · obtain ⟨p, -, hp⟩ := (univ : Finset P).exists_min_image η univ_nonempty
      exact ⟨η p, hη p, fun q => hp q (mem_univ q)⟩
    · exact ⟨1, one_pos, fun p => (hP ⟨p⟩).elim⟩
  refine ⟨m, hm, fun u numbers result h1 h2 h3 h4 => ?_⟩
  choose rays hr hnear using fun p =>
    key p u (numbers p) (result p) h1 (h2.trans_le (hle p)) (fun s => (h3 p s).trans_le (hle p)) (h4 p)
  exact ⟨rays, hr, hnear⟩

theorem counts_near {r : Ray} {numbers : Slot → ℝ} (h : |numbers flag - r.numbers flag| < 1 / 2) :
    counts numbers ↔ r.unvignetted = true := by
  have := abs_lt.1 h
  unfold counts
  simp only [Ray.numbers] at this
  cases hb : r.unvignetted <;> simp only [hb, if_true, Bool.false_eq_true, if_false] at this ⊢ <;>
    [exact ⟨fun h => absurd h (by linarith), fun h => absurd h (by simp)⟩; exact ⟨fun _ => trivial, fun _ => by linarith⟩]

/-- The rays of a field point, and sums over the ones that meet a condition. -/
theorem sums_near [Fintype P] [DecidableEq P] {ss : List Element} {r out : P → Ray}
    (h : ∀ p, propagateSurfaces (ss.map Element.surface) (r p) = some (out p)) (hc : ∀ p, ClearAll ss (r p))
    {δ : ℝ} (hδ : 0 < δ) (s : Finset P) (w : (Slot → ℝ) → ℝ) (x : P → ℝ)
    (hw : ∀ η, 0 < η → η ≤ 1 / 2 → ∀ p n, (∀ k, |n k - (out p).numbers k| < η) → |w n - x p| < η) {ε : ℝ} (hε : 0 < ε) :
    ∃ η > 0, η ≤ ε ∧ ∀ u (numbers : P → Slot → ℝ) (result : P → Option (Slot → ℝ)), 0 ≤ u → u < η →
      (∀ p s, |numbers p s - (r p).numbers s| < η) →
      (∀ p, Runs u (ss.flatMap Element.program) (numbers p) (result p)) →
      ∃ rays : P → Slot → ℝ, (∀ p, result p = some (rays p)) ∧ (∀ p s, |rays p s - (out p).numbers s| < δ) ∧
        ∀ a, Adds u (fun p => w (rays p)) s a → |a - ∑ p ∈ s, x p| < ε := by
  obtain ⟨η1, hη1, h1⟩ := adds_near s x hε
  obtain ⟨η2, hη2, h2⟩ := rays_near h hc (ε := min (min δ η1) (1 / 2)) (by positivity)
  refine ⟨min ε (min η1 η2), by positivity, min_le_left _ _, fun u numbers result hu hlt hn hr => ?_⟩
  have hlt1 : u < η1 := hlt.trans_le ((min_le_right _ _).trans (min_le_left _ _))
  have hle2 : min ε (min η1 η2) ≤ η2 := (min_le_right _ _).trans (min_le_right _ _)
  obtain ⟨rays, h3, h4⟩ := h2 u numbers result hu (hlt.trans_le hle2)
    (fun p s => (hn p s).trans_le hle2) hr
  refine ⟨rays, h3, fun p s => (h4 p s).trans_le ((min_le_left _ _).trans (min_le_left _ _)), fun a ha => ?_⟩
  refine h1 u _ a hu hlt1 (fun p _ => ?_) ha
  exact (hw _ (by positivity) (min_le_right _ _) p _ (h4 p)).trans_le ((min_le_left _ _).trans (min_le_right _ _))

/-! ## The property -/

/-- **C112**  The errors of the effective area vanish with the precision: if the rays of a field point strike the surfaces of
a system well, a computer that is precise enough adds up, in whatever order, the intensities of those rays that are not
vignetted, with an error as small as one likes. -/
theorem C112_area [Fintype P] [DecidableEq P] (ss : List Element) (r out : P → Ray)
    (h : ∀ p, propagateSurfaces (ss.map Element.surface) (r p) = some (out p)) (hc : ∀ p, ClearAll ss (r p))
    (ε : ℝ) (hε : 0 < ε) :
    ∃ η > 0, ∀ u (numbers : P → Slot → ℝ) (result : P → Option (Slot → ℝ)), 0 ≤ u → u < η →
      (∀ p s, |numbers p s - (r p).numbers s| < η) →
      (∀ p, Runs u (ss.flatMap Element.program) (numbers p) (result p)) →
      ∃ rays : P → Slot → ℝ, (∀ p, result p = some (rays p)) ∧ ∀ area, AreaComputes u rays area →
        |area - ∑ p with (out p).unvignetted = true, (out p).intensity| < ε := by
  obtain ⟨η, hη, -, key⟩ := sums_near h hc (δ := 1 / 2) (by norm_num) (univ.filter fun p => (out p).unvignetted = true)
    (fun n => n intensity) (fun p => (out p).intensity) (fun η _ _ p n hn => hn intensity) hε
  refine ⟨η, hη, fun u numbers result h1 h2 h3 h4 => ?_⟩
  obtain ⟨rays, h5, h6, h7⟩ := key u numbers result h1 h2 h3 h4
  refine ⟨rays, h5, fun area ha => h7 area ?_⟩
  unfold AreaComputes at ha
  simpa only [counts_near (h6 _ flag)] using ha

/-- No coordinate of the ray is an edge of the bin. -/
def Bin.Inside (b : Bin) (r : Ray) : Prop :=
  (r.wavelength ≠ b.wavelength.1 ∧ r.wavelength ≠ b.wavelength.2) ∧
    (r.position.x ≠ b.x.1 ∧ r.position.x ≠ b.x.2) ∧ (r.position.y ≠ b.y.1 ∧ r.position.y ≠ b.y.2)

theorem interval_near {a b x : ℝ} (h1 : x ≠ a) (h2 : x ≠ b) :
    ∃ δ > 0, ∀ y, |y - x| < δ → ((a ≤ y ∧ y < b) ↔ (a ≤ x ∧ x < b)) := by
  refine ⟨min |x - a| |x - b|, lt_min (abs_pos.2 (sub_ne_zero.2 h1)) (abs_pos.2 (sub_ne_zero.2 h2)), fun y hy => ?_⟩
  have h3 := abs_lt.1 (hy.trans_le (min_le_left _ _))
  have h4 := abs_lt.1 (hy.trans_le (min_le_right _ _))
  have e1 : a ≤ y ↔ a ≤ x := by
    rcases lt_or_gt_of_ne h1 with h | h
    · rw [abs_of_neg (by linarith)] at h3
      exact ⟨fun _ => by linarith, fun _ => by linarith⟩
    · rw [abs_of_pos (by linarith)] at h3
      exact ⟨fun _ => by linarith, fun _ => by linarith⟩
  have e2 : y < b ↔ x < b := by
    rcases lt_or_gt_of_ne h2 with h | h
    · rw [abs_of_neg (by linarith)] at h4
      exact ⟨fun _ => by linarith, fun _ => by linarith⟩
    · rw [abs_of_pos (by linarith)] at h4
      exact ⟨fun _ => by linarith, fun _ => by linarith⟩
  rw [e1, e2]

theorem bin_near {b : Bin} {r : Ray} (h : b.Inside r) :
    ∃ δ > 0, ∀ n : Slot → ℝ, (∀ k, |n k - r.numbers k| < δ) → (b.holds n ↔ b.holds r.numbers) := by
  obtain ⟨d1, hd1, k1⟩ := interval_near h.1.1 h.1.2
  obtain ⟨d2, hd2, k2⟩ := interval_near h.2.1.1 h.2.1.2
  obtain ⟨d3, hd3, k3⟩ := interval_near h.2.2.1 h.2.2.2
  refine ⟨min d1 (min d2 d3), by positivity, fun n hn => ?_⟩
  unfold Bin.holds
  rw [k1 _ ((hn wavelength).trans_le (min_le_left _ _)), k2 _ ((hn px).trans_le ((min_le_right _ _).trans (min_le_left _ _))),
    k3 _ ((hn py).trans_le ((min_le_right _ _).trans (min_le_right _ _)))]
  rfl

/-- **C112**  The errors of an image vanish with the precision, as long as no ray strikes the sensor on the edge of a
pixel. -/
theorem C112_image [Fintype P] [DecidableEq P] (ss : List Element) (r out : P → Ray)
    (h : ∀ p, propagateSurfaces (ss.map Element.surface) (r p) = some (out p)) (hc : ∀ p, ClearAll ss (r p))
    (b : Bin) (hb : ∀ p, b.Inside (out p)) (ε : ℝ) (hε : 0 < ε) :
    ∃ η > 0, ∀ u (numbers : P → Slot → ℝ) (result : P → Option (Slot → ℝ)), 0 ≤ u → u < η →
      (∀ p s, |numbers p s - (r p).numbers s| < η) →
      (∀ p, Runs u (ss.flatMap Element.program) (numbers p) (result p)) →
      ∃ rays : P → Slot → ℝ, (∀ p, result p = some (rays p)) ∧ ∀ value, PixelComputes u b rays value →
        |value - ∑ p with ((out p).unvignetted = true ∧
          (b.wavelength.1 ≤ (out p).wavelength ∧ (out p).wavelength < b.wavelength.2) ∧
          (b.x.1 ≤ (out p).position.x ∧ (out p).position.x < b.x.2) ∧
          (b.y.1 ≤ (out p).position.y ∧ (out p).position.y < b.y.2)), (out p).intensity| < ε := by
  classical
  choose d hd near using fun p => bin_near (hb p)
  obtain ⟨δ, hδ, hle⟩ : ∃ m > 0, ∀ p, m ≤ d p := by
    by_cases hP : Nonempty P
    · obtain ⟨p, -, hp⟩ := (univ : Finset P).exists_min_image d univ_nonempty
      exact ⟨d p, hd p, fun q => hp q (mem_univ q)⟩
    · exact ⟨1, one_pos, fun p => (hP ⟨p⟩).elim⟩
  obtain ⟨η, hη, -, key⟩ := sums_near h hc (δ := δ) hδ (univ.filter fun p => b.holds (out p).numbers)
    (fun n => if counts n then n intensity else 0)
    (fun p => if (out p).unvignetted = true then (out p).intensity else 0) (fun η h0 h1 p n hn => by
      have hf := counts_near ((hn flag).trans_le h1)
      simp only [hf]
      split_ifs
      · exact hn intensity
      · simpa using h0) hε
  refine ⟨η, hη, fun u numbers result h1 h2 h3 h4 => ?_⟩
  obtain ⟨rays, h5, h6, h7⟩ := key u numbers result h1 h2 h3 h4
  refine ⟨rays, h5, fun value ha => ?_⟩
  have hsum : ∑ p with ((out p).unvignetted = true ∧ b.holds (out p).numbers), (out p).intensity =
      ∑ p with b.holds (out p).numbers, if (out p).unvignetted = true then (out p).intensity else 0 := by
    rw [← sum_filter, filter_filter]
    exact sum_congr (filter_congr fun p _ => And.comm) fun _ _ => rfl
  have hgoal := h7 value (by
    unfold PixelComputes at ha
    simpa only [near _ _ (fun k => (h6 _ k).trans_le (hle _))] using ha)
  rw [← hsum] at hgoal
  refine lt_of_eq_of_lt ?_ hgoal
  congr 2
  exact sum_congr (filter_congr fun p _ => Iff.rfl) fun _ _ => rfl

/-- **C112**  The errors of the positions that `distortion` fits vanish with the precision, wherever a ray is not
vignetted. -/
theorem C112_centroid [Fintype P] [DecidableEq P] (ss : List Element) (r out : P → Ray)
    (h : ∀ p, propagateSurfaces (ss.map Element.surface) (r p) = some (out p)) (hc : ∀ p, ClearAll ss (r p))
    (hsome : ∃ p, (out p).unvignetted = true) (coordinate : Slot) (ε : ℝ) (hε : 0 < ε) :
    ∃ η > 0, ∀ u (numbers : P → Slot → ℝ) (result : P → Option (Slot → ℝ)), 0 ≤ u → u < η →
      (∀ p s, |numbers p s - (r p).numbers s| < η) →
      (∀ p, Runs u (ss.flatMap Element.program) (numbers p) (result p)) →
      ∃ rays : P → Slot → ℝ, (∀ p, result p = some (rays p)) ∧ ∀ mean, MeanComputes u coordinate rays mean →
        |mean - (∑ p with (out p).unvignetted = true, (out p).numbers coordinate) /
          ((univ.filter fun p => (out p).unvignetted = true).card : ℝ)| < ε := by
  set s := univ.filter fun p => (out p).unvignetted = true with hs
  have hcard : (1 : ℝ) ≤ s.card := by
    obtain ⟨p, hp⟩ := hsome
    have hne : s.Nonempty := ⟨p, by simp [hs, hp]⟩
    exact_mod_cast hne.card_pos
  set m := (∑ p ∈ s, (out p).numbers coordinate) / (s.card : ℝ) with hm
  set κ := min (min (ε / 2) 1) (ε / (2 * (2 + |m|)))
  have hκ : 0 < κ := by positivity
  obtain ⟨η, hη, hle, key⟩ := sums_near h hc (δ := 1 / 2) (by norm_num) s
    (fun n => n coordinate) (fun p => (out p).numbers coordinate) (fun η _ _ p n hn => hn coordinate) hκ
  refine ⟨η, hη, fun u numbers result h1 h2 h3 h4 => ?_⟩
  obtain ⟨rays, h5, h6, h7⟩ := key u numbers result h1 h2 h3 h4
  refine ⟨rays, h5, fun mean ha => ?_⟩
  unfold MeanComputes at ha
  simp only [counts_near (h6 _ flag)] at ha
  obtain ⟨total, ht, hr⟩ := ha
  have hr : Rounded u (total / (s.card : ℝ)) mean := by convert hr
  have ht := h7 total (by convert ht)
  have hd : |total / (s.card : ℝ) - m| < κ := by
    rw [hm, ← sub_div, abs_div, abs_of_pos (by linarith : (0 : ℝ) < s.card)]
    exact (div_le_self (abs_nonneg _) hcard).trans_lt ht
  have h8 : |total / (s.card : ℝ)| ≤ 1 + |m| := by
    have h9 := abs_add_le (total / (s.card : ℝ) - m) m
    rw [sub_add_cancel] at h9
    have : κ ≤ 1 := (min_le_left _ _).trans (min_le_right _ _)
    linarith
  have h9 : u * (1 + |total / (s.card : ℝ)|) ≤ ε / 2 := by
    have hu : u ≤ ε / (2 * (2 + |m|)) := (h2.le.trans hle).trans (min_le_right _ _)
    have hpos : 0 < 2 + |m| := by positivity
    calc u * (1 + |total / (s.card : ℝ)|) ≤ ε / (2 * (2 + |m|)) * (2 + |m|) := by
          apply mul_le_mul hu (by linarith) (by positivity) (by positivity)
      _ = ε / 2 := by field_simp
  have h10 := hr.error
  have h11 : mean - m = (mean - total / (s.card : ℝ)) + (total / (s.card : ℝ) - m) := by ring
  rw [h11]
  refine (abs_add_le _ _).trans_lt ?_
  have : κ ≤ ε / 2 := (min_le_left _ _).trans (min_le_left _ _)
  linarith

/-- Adding three numbers in two ways. -/
example {u a b c ab abc bc abc' : ℝ} (h1 : Rounded u (a + b) ab) (h2 : Rounded u (ab + c) abc)
    (h3 : Rounded u (b + c) bc) (h4 : Rounded u (a + bc) abc') :
    Adds u ![a, b, c] univ abc ∧ Adds u ![a, b, c] univ abc' := by
  have e1 : (univ : Finset (Fin 3)) = ({0} ∪ {1}) ∪ {2} := by decide
  have e2 : (univ : Finset (Fin 3)) = {0} ∪ ({1} ∪ {2}) := by decide
  constructor
  · rw [e1]
    exact .add (by simp) (by simp) (by decide) (.add (by simp) (by simp) (by decide) (.one 0) (.one 1) h1) (.one 2) h2
  · rw [e2]
    exact .add (by simp) (by simp) (by decide) (.one 0) (.add (by simp) (by simp) (by decide) (.one 1) (.one 2) h3) h4

/-- The hypotheses are met by rays that strike a mirror and a detector, and a pixel that they fall into. -/
example : ∃ out : Fin 4 → Ray,
    (∀ p, propagateSurfaces (mirrorAndDetector.map Element.surface) ((fun _ => offAxisRay) p) = some (out p)) ∧
    (∀ p : Fin 4, ClearAll mirrorAndDetector ((fun _ => offAxisRay) p)) ∧ (∃ p, (out p).unvignetted = true) ∧
    (∀ p, Bin.Inside ⟨(0, 2), (26, 28), (-1, 1)⟩ (out p)) ∧
    ∑ p with (out p).unvignetted = true, (out p).intensity = 4 := by
  obtain ⟨hc, out, h, hp, hw, hi, hv⟩ := offAxis_clear
  refine ⟨fun _ => out, fun _ => h, fun _ => hc, ⟨0, hv⟩, fun _ => ?_, ?_⟩
  · rw [Bin.Inside, hp, hw]
    norm_num
  · simp [hv, hi]

end Optika
