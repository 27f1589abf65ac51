import Mathlib.Analysis.SpecialFunctions.Trigonometric.Bounds
import Verif.Props.Apertures
import Mathlib.Tactic.IntervalCases

/-!
# C20: wires of apertures
-/

namespace Optika
open V3 Real

/-- The samples of one side. -/
noncomputable def sidePart (side : ℕ → ℝ → V3) (l : List (ℕ × Bool)) (v : ℕ) : List V3 :=
  (linspace01 (l.getD v (0, false)).1 (l.getD v (0, false)).2).map (side v)

theorem sampleSides_eq (side : ℕ → ℝ → V3) (l : List (ℕ × Bool)) (v : ℕ) :
    sampleSides side v l =
      ((List.range l.length).map fun i => (linspace01 (l.getD i (0, false)).1
        (l.getD i (0, false)).2).map (side (v + i))).flatten := by
  induction l generalizing v with
  | nil => simp [sampleSides]
  | cons a l ih =>
    obtain ⟨n, e⟩ := a
    rw [sampleSides, ih, List.length_cons, List.range_succ_eq_map, List.map_cons,
      List.flatten_cons, List.map_map]
    congr 1
    congr 1
    apply List.map_congr_left
    intro i _
    simp only [Function.comp_apply, Nat.succ_eq_add_one, List.getD_cons_succ]
    rw [show v + (i + 1) = v + 1 + i by omega]

/-- The numbers of samples for `n` sides with exact arithmetic. -/
theorem counts_total {rnd : ℚ → ℚ} {num n : ℕ} (hn : 0 < n)
    (hr : ∀ k : ℕ, k ≤ n * num → rnd ((k : ℚ) / (n : ℚ)) = (k : ℚ) / (n : ℚ)) :
    sideCounts rnd num (rnd ((num : ℚ) / (n : ℚ))) n 0 0 = (List.range n).map fun i =>
        ((i + 1) * num / n - i * num / n, decide ((i + 1) * num / n = num)) := by
  have h := sideCounts_exact hn hr n 0 (by omega)
  rw [hr num (Nat.le_mul_of_pos_left _ hn)]
  simpa using h

theorem map_toParent_segment (g : Option Rigid) {a b p : V3} (h : OnSegment a b p) :
    OnSegment (toParent g a) (toParent g b) (toParent g p) := by
  obtain ⟨t, h0, h1, rfl⟩ := h
  refine ⟨t, h0, h1, ?_⟩
  cases g with
  | none => rfl
  | some g =>
    apply V3.ext <;> simp [toParent, Rigid.point, M3.mulVec, dot] <;> ring

theorem polygonSide_onSegment (vertices : List V3) (v : ℕ) {t : ℝ} (h0 : 0 ≤ t) (h1 : t ≤ 1) :
    OnSegment (vertices.getD v 0) (vertices.getD ((v + 1) % vertices.length) 0)
      (polygonSide vertices v t) := ⟨t, h0, h1, rfl⟩

/-- C20: whatever the rounding, every sample of the wire of a polygon lies on a side of the
polygon, that is, on the segment between a vertex and the next one (after the last vertex the
first one again). -/
theorem C20_polygon_boundary (rnd : ℚ → ℚ) (vertices : List V3) (g : Option Rigid) (num : ℕ)
    (p : V3) (h : p ∈ polygonWire rnd vertices g num) :
    ∃ v < vertices.length, OnSegment (toParent g (vertices.getD v 0))
      (toParent g (vertices.getD ((v + 1) % vertices.length) 0)) p := by
  simp only [polygonWire, List.mem_map] at h
  obtain ⟨q, hq, rfl⟩ := h
  obtain ⟨k, t, hk, h0, h1, rfl⟩ := mem_sampleSides hq
  rw [sideCounts_length] at hk
  refine ⟨k, hk, map_toParent_segment g ?_⟩
  simpa using polygonSide_onSegment vertices k h0 h1

/-- C20: with exact arithmetic (or with any rounding that is exact on the multiples of
`1 / sides` that occur) the wire of a polygon has exactly the requested number of samples, and
they are distributed evenly: the wire is the concatenation of one part for each side, all samples
of a part are on that side, and each part has `num / sides` samples, rounded down or up. -/
theorem C20_polygon_count (rnd : ℚ → ℚ) (vertices : List V3) (g : Option Rigid) (num : ℕ)
    (hn : vertices ≠ [])
    (hr : ∀ k : ℕ, k ≤ vertices.length * num →
      rnd ((k : ℚ) / (vertices.length : ℚ)) = (k : ℚ) / (vertices.length : ℚ)) :
    (polygonWire rnd vertices g num).length = num ∧
    ∃ parts : ℕ → List V3,
      polygonWire rnd vertices g num = ((List.range vertices.length).map parts).flatten ∧
      ∀ v < vertices.length,
        (num / vertices.length ≤ (parts v).length ∧
          (parts v).length ≤ num / vertices.length + 1) ∧
        ∀ p ∈ parts v, OnSegment (toParent g (vertices.getD v 0))
          (toParent g (vertices.getD ((v + 1) % vertices.length) 0)) p := by
  have hpos : 0 < vertices.length := List.length_pos_iff.2 hn
  constructor
  · simp only [polygonWire]
    rw [List.length_map, sampleSides_length, counts_total hpos hr, List.map_map]
    have := sum_counts num vertices.length vertices.length
    rw [Nat.mul_div_cancel_left _ hpos] at this
    exact this
  · simp only [polygonWire]
    rw [counts_total hpos hr, sampleSides_eq, List.map_flatten, List.map_map]
    simp only [List.length_map, List.length_range]
    refine ⟨_, rfl, ?_⟩
    intro v hv
    have hget : (((List.range vertices.length).map fun i =>
        ((i + 1) * num / vertices.length - i * num / vertices.length,
          decide ((i + 1) * num / vertices.length = num))).getD v (0, false)) =
        ((v + 1) * num / vertices.length - v * num / vertices.length,
          decide ((v + 1) * num / vertices.length = num)) := by
      simp [List.getD, hv]
    simp only [Function.comp_apply, hget, List.length_map, linspace01_length]
    refine ⟨count_share num vertices.length v hpos, ?_⟩
    intro p hp
    simp only [List.mem_map] at hp
    obtain ⟨q, ⟨t, ht, rfl⟩, rfl⟩ := hp
    obtain ⟨h0, h1⟩ := linspace01_mem ht
    simpa using map_toParent_segment g (polygonSide_onSegment vertices v h0 h1)

example : (polygonWire id (rectangleVertices 1 2) none 101).length = 101 :=
  (C20_polygon_count id _ none 101 (by simp [rectangleVertices_eq]) (fun _ _ => rfl)).1

/-- C20: in binary64 arithmetic the number of samples is exact for polygons whose number of
sides is a power of two (rectangles, trapezoids and octagons). -/
theorem C20_polygon_count_binary64_partial (vertices : List V3) (g : Option Rigid) (num j : ℕ)
    (hj : vertices.length = 2 ^ j) (hnum : 2 ^ j * num < 2 ^ 53) :
    (polygonWire binary64 vertices g num).length = num := by
  refine (C20_polygon_count binary64 vertices g num ?_ ?_).1
  · rintro rfl
    have := Nat.two_pow_pos j
    simp at hj
    omega
  · intro k hk
    rw [hj] at hk ⊢
    exact binary64_dyadic k j (lt_of_le_of_lt hk hnum)

example : (polygonWire binary64 (regularVertices 1 8) none 101).length = 101 :=
  C20_polygon_count_binary64_partial _ none 101 3 (by simp [regularVertices]) (by norm_num)

theorem sideCounts_step {rnd : ℚ → ℚ} {num k v : ℕ} {per a b : ℚ} {cum nv : ℤ}
    (ha : rnd (((v + 1 : ℕ) : ℚ) * per) = a) (hb : rnd (a - (cum : ℚ)) = b)
    (hi : pyInt b = nv) :
    sideCounts rnd num per (k + 1) v cum =
      (nv.toNat, decide (cum + nv = (num : ℤ))) ::
        sideCounts rnd num per k (v + 1) (cum + nv) := by
  simp only [sideCounts, ha, hb, hi]

theorem roundHalfEven_of {x : ℚ} {f : ℤ} (h1 : (f : ℚ) - 1 / 2 < x) (h2 : x < f + 1 / 2) :
    roundHalfEven x = f := by
  unfold roundHalfEven
  rcases lt_or_ge x f with h | h
  · have hf : ⌊x⌋ = f - 1 := by rw [Int.floor_eq_iff]; push_cast; constructor <;> linarith
    simp only [hf]; push_cast
    rw [if_neg (by linarith), if_pos (by linarith)]; ring
  · have hf : ⌊x⌋ = f := by rw [Int.floor_eq_iff]; constructor <;> linarith
    simp only [hf]
    rw [if_pos (by linarith)]

theorem roundHalfEven_of_even {x : ℚ} {f : ℤ} (h0 : f % 2 = 0) (h1 : (f : ℚ) - 1 / 2 ≤ x)
    (h2 : x ≤ f + 1 / 2) : roundHalfEven x = f := by
  unfold roundHalfEven
  rcases lt_or_ge x f with h | h
  · have hf : ⌊x⌋ = f - 1 := by rw [Int.floor_eq_iff]; push_cast; constructor <;> linarith
    simp only [hf]; push_cast
    rw [if_neg (by linarith)]
    split
    · ring
    · rw [if_neg (by omega)]; ring
  · have hf : ⌊x⌋ = f := by rw [Int.floor_eq_iff]; constructor <;> linarith
    simp only [hf]
    split
    · rfl
    · rw [if_neg (by linarith)]

theorem binary64_eq_even {x : ℚ} (e f : ℤ) (h1 : (2 : ℚ) ^ e ≤ x) (h2 : x < (2 : ℚ) ^ (e + 1))
    (h0 : f % 2 = 0) (h3 : (f : ℚ) - 1 / 2 ≤ x / (2 : ℚ) ^ (e - 52))
    (h4 : x / (2 : ℚ) ^ (e - 52) ≤ f + 1 / 2) :
    binary64 x = f * (2 : ℚ) ^ (e - 52) := by
  rw [binary64_of_log h1 h2, roundHalfEven_of_even h0 h3 h4]

theorem binary64_eq {x : ℚ} (e f : ℤ) (h1 : (2 : ℚ) ^ e ≤ x) (h2 : x < (2 : ℚ) ^ (e + 1))
    (h3 : (f : ℚ) - 1 / 2 < x / (2 : ℚ) ^ (e - 52)) (h4 : x / (2 : ℚ) ^ (e - 52) < f + 1 / 2) :
    binary64 x = f * (2 : ℚ) ^ (e - 52) := by
  rw [binary64_of_log h1 h2, roundHalfEven_of h3 h4]

/-- The numbers of samples of the sides of a heptagon in binary64 arithmetic. -/
theorem heptagon_counts :
    sideCounts binary64 61 (binary64 (((61 : ℕ) : ℚ) / ((7 : ℕ) : ℚ))) 7 0 0 =
      [(8, false), (9, false), (9, false), (8, false), (9, false), (9, false), (8, false)] := by
  have p : binary64 (((61 : ℕ) : ℚ) / ((7 : ℕ) : ℚ)) = 4905706736957147 / 562949953421312 := by
    rw [binary64_eq 3 4905706736957147 (by norm_num) (by norm_num) (by norm_num) (by norm_num)]; norm_num
  rw [p]
  rw [show sideCounts binary64 61 (4905706736957147 / 562949953421312) 7 0 0 =
      (8, false) :: sideCounts binary64 61 (4905706736957147 / 562949953421312) 6 1 8 from
    sideCounts_step (a := 4905706736957147 / 562949953421312) (b := 4905706736957147 / 562949953421312) (nv := 8)
      (by rw [binary64_eq 3 4905706736957147 (by norm_num) (by norm_num) (by norm_num) (by norm_num)]
          norm_num)
      (by rw [binary64_eq 3 4905706736957147 (by norm_num) (by norm_num) (by norm_num) (by norm_num)]
          norm_num)
      (by rw [pyInt, if_pos (by norm_num), Int.floor_eq_iff]; norm_num)]
  rw [show sideCounts binary64 61 (4905706736957147 / 562949953421312) 6 1 8 =
      (9, false) :: sideCounts binary64 61 (4905706736957147 / 562949953421312) 5 2 17 from
    sideCounts_step (a := 4905706736957147 / 281474976710656) (b := 2653906923271899 / 281474976710656) (nv := 9)
      (by rw [binary64_eq 4 4905706736957147 (by norm_num) (by norm_num) (by norm_num) (by norm_num)]
          norm_num)
      (by rw [binary64_eq_even 3 5307813846543798 (by norm_num) (by norm_num) (by norm_num) (by norm_num)
            (by norm_num)]
          norm_num)
      (by rw [pyInt, if_pos (by norm_num), Int.floor_eq_iff]; norm_num)]
  rw [show sideCounts binary64 61 (4905706736957147 / 562949953421312) 5 2 17 =
      (9, false) :: sideCounts binary64 61 (4905706736957147 / 562949953421312) 4 3 26 from
    sideCounts_step (a := 919820013179465 / 35184372088832) (b := 321685687669321 / 35184372088832) (nv := 9)
      (by rw [binary64_eq_even 4 7358560105435720 (by norm_num) (by norm_num) (by norm_num) (by norm_num)
            (by norm_num)]
          norm_num)
      (by rw [binary64_eq_even 3 5146971002709136 (by norm_num) (by norm_num) (by norm_num) (by norm_num)
            (by norm_num)]
          norm_num)
      (by rw [pyInt, if_pos (by norm_num), Int.floor_eq_iff]; norm_num)]
  rw [show sideCounts binary64 61 (4905706736957147 / 562949953421312) 4 3 26 =
      (8, false) :: sideCounts binary64 61 (4905706736957147 / 562949953421312) 3 4 34 from
    sideCounts_step (a := 4905706736957147 / 140737488355328) (b := 1246532039718619 / 140737488355328) (nv := 8)
      (by rw [binary64_eq 5 4905706736957147 (by norm_num) (by norm_num) (by norm_num) (by norm_num)]
          norm_num)
      (by rw [binary64_eq_even 3 4986128158874476 (by norm_num) (by norm_num) (by norm_num) (by norm_num)
            (by norm_num)]
          norm_num)
      (by rw [pyInt, if_pos (by norm_num), Int.floor_eq_iff]; norm_num)]
  rw [show sideCounts binary64 61 (4905706736957147 / 562949953421312) 3 4 34 =
      (9, false) :: sideCounts binary64 61 (4905706736957147 / 562949953421312) 2 5 43 from
    sideCounts_step (a := 3066066710598217 / 70368744177664) (b := 673529408557641 / 70368744177664) (nv := 9)
      (by rw [binary64_eq_even 5 6132133421196434 (by norm_num) (by norm_num) (by norm_num) (by norm_num)
            (by norm_num)]
          norm_num)
      (by rw [binary64_eq_even 3 5388235268461128 (by norm_num) (by norm_num) (by norm_num) (by norm_num)
            (by norm_num)]
          norm_num)
      (by rw [pyInt, if_pos (by norm_num), Int.floor_eq_iff]; norm_num)]
  rw [show sideCounts binary64 61 (4905706736957147 / 562949953421312) 2 5 43 =
      (9, false) :: sideCounts binary64 61 (4905706736957147 / 562949953421312) 1 6 52 from
    sideCounts_step (a := 919820013179465 / 17592186044416) (b := 163356013269577 / 17592186044416) (nv := 9)
      (by rw [binary64_eq_even 5 7358560105435720 (by norm_num) (by norm_num) (by norm_num) (by norm_num)
            (by norm_num)]
          norm_num)
      (by rw [binary64_eq_even 3 5227392424626464 (by norm_num) (by norm_num) (by norm_num) (by norm_num)
            (by norm_num)]
          norm_num)
      (by rw [pyInt, if_pos (by norm_num), Int.floor_eq_iff]; norm_num)]
  rw [show sideCounts binary64 61 (4905706736957147 / 562949953421312) 1 6 52 =
      (8, false) :: sideCounts binary64 61 (4905706736957147 / 562949953421312) 0 7 60 from
    sideCounts_step (a := 8584986789675007 / 140737488355328) (b := 1266637395197951 / 140737488355328) (nv := 8)
      (by rw [binary64_eq 5 8584986789675007 (by norm_num) (by norm_num) (by norm_num) (by norm_num)]
          norm_num)
      (by rw [binary64_eq_even 3 5066549580791804 (by norm_num) (by norm_num) (by norm_num) (by norm_num)
            (by norm_num)]
          norm_num)
      (by rw [pyInt, if_pos (by norm_num), Int.floor_eq_iff]; norm_num)]
  rfl

/-- C20: in binary64 arithmetic the number of samples may be one too small: 61 samples of a
heptagon are only 60, because `7 * (61 / 7)` is rounded to a number less than 61.  (The end point
is then missing, too: the wire is not closed.) -/
theorem C20_polygon_binary64_counterexample (r : ℝ) (g : Option Rigid) :
    (polygonWire binary64 (regularVertices r 7) g 61).length = 60 := by
  have hl : (regularVertices r 7).length = 7 := by simp [regularVertices]
  simp only [polygonWire, hl, List.length_map, sampleSides_length, heptagon_counts]
  rfl

/-- C20: if there are at least as many samples as sides, every vertex is a sample. -/
theorem C20_polygon_vertices (vertices : List V3) (g : Option Rigid) (num : ℕ)
    (hnum : vertices.length ≤ num) (v : V3) (hv : v ∈ vertices) :
    toParent g v ∈ polygonWire id vertices g num := by
  obtain ⟨i, hi, rfl⟩ := List.mem_iff_getElem.1 hv
  have hpos : 0 < vertices.length := by omega
  simp only [polygonWire]
  rw [counts_total (rnd := id) hpos (fun _ _ => rfl), sampleSides_eq]
  apply List.mem_map_of_mem
  simp only [List.length_map, List.length_range, List.mem_flatten, List.mem_map, List.mem_range,
    exists_exists_and_eq_and]
  refine ⟨i, hi, 0, ?_, ?_⟩
  · have hget : (((List.range vertices.length).map fun i =>
        ((i + 1) * num / vertices.length - i * num / vertices.length,
          decide ((i + 1) * num / vertices.length = num))).getD i (0, false)) =
        ((i + 1) * num / vertices.length - i * num / vertices.length,
          decide ((i + 1) * num / vertices.length = num)) := by
      simp [List.getD, hi]
    rw [hget]
    have h1 := (count_share num vertices.length i hpos).1
    have h2 : 1 ≤ num / vertices.length := (Nat.one_le_div_iff hpos).2 hnum
    simp only [linspace01, List.mem_map, List.mem_range]
    exact ⟨0, by omega, by simp⟩
  · apply V3.ext <;> simp [polygonSide, hi]

example : (⟨1, -2, 0⟩ : V3) ∈ polygonWire id (rectangleVertices 1 2) none 4 :=
  C20_polygon_vertices _ none 4 (by simp [rectangleVertices_eq]) ⟨1, -2, 0⟩
    (by simp [rectangleVertices_eq])

theorem linspace01_getLast (n : ℕ) (hn : 2 ≤ n) : (linspace01 n true).getLast? = some 1 := by
  obtain ⟨m, rfl⟩ : ∃ m, n = m + 1 := ⟨n - 1, by omega⟩
  have hm : (m : ℝ) ≠ 0 := by
    have : m ≠ 0 := by omega
    exact_mod_cast this
  have hm' : m ≠ 0 := by omega
  simp [linspace01, List.range_succ, hm, hm']

/-- C20: the wire of a polygon with at least two samples per side is closed: it starts and ends
at the first vertex. -/
theorem C20_polygon_closed (vertices : List V3) (g : Option Rigid) (num : ℕ)
    (hn : vertices ≠ []) (hnum : 2 * vertices.length ≤ num) :
    (polygonWire id vertices g num).head? = some (toParent g (vertices.getD 0 0)) ∧
    (polygonWire id vertices g num).getLast? = some (toParent g (vertices.getD 0 0)) := by
  have hpos : 0 < vertices.length := List.length_pos_iff.2 hn
  have h2 : 2 ≤ num / vertices.length := (Nat.le_div_iff_mul_le hpos).2 hnum
  obtain ⟨m, hm⟩ : ∃ m, vertices.length = m + 1 := ⟨vertices.length - 1, by omega⟩
  simp only [polygonWire]
  rw [counts_total (rnd := id) hpos (fun _ _ => rfl), sampleSides_eq]
  simp only [List.length_map, List.length_range]
  have hget (i : ℕ) (hi : i < vertices.length) : (((List.range vertices.length).map fun i =>
        ((i + 1) * num / vertices.length - i * num / vertices.length,
          decide ((i + 1) * num / vertices.length = num))).getD i (0, false)) =
        ((i + 1) * num / vertices.length - i * num / vertices.length,
          decide ((i + 1) * num / vertices.length = num)) := by
      simp [List.getD, hi]
  constructor
  · have h1 := (count_share num vertices.length 0 hpos).1
    have e : List.range vertices.length = 0 :: (List.range m).map Nat.succ := by
      rw [hm, List.range_succ_eq_map]
    have hg := hget 0 hpos
    generalize ((List.range vertices.length).map fun i =>
        ((i + 1) * num / vertices.length - i * num / vertices.length,
          decide ((i + 1) * num / vertices.length = num))) = l at hg ⊢
    rw [e, List.map_cons, List.flatten_cons, hg]
    obtain ⟨c, hc⟩ : ∃ c, (0 + 1) * num / vertices.length - 0 * num / vertices.length = c + 1 :=
      ⟨_, (Nat.succ_pred_eq_of_pos (by omega)).symm⟩
    rw [hc]
    simp only [linspace01, List.range_succ_eq_map, List.map_cons, List.cons_append,
      List.head?_cons]
    congr 2
    apply V3.ext <;> simp [polygonSide]
  · have h1 := (count_share num vertices.length m hpos).1
    have e : List.range vertices.length = List.range m ++ [m] := by
      rw [hm, List.range_succ]
    have hg := hget m (by omega)
    generalize ((List.range vertices.length).map fun i =>
        ((i + 1) * num / vertices.length - i * num / vertices.length,
          decide ((i + 1) * num / vertices.length = num))) = l at hg ⊢
    have hlast : (m + 1) * num / vertices.length = num := by
      rw [← hm, Nat.mul_div_cancel_left _ hpos]
    rw [e, List.map_append, List.flatten_append, List.map_cons, List.map_nil, List.flatten_cons,
      List.flatten_nil, List.append_nil, hg, hlast]
    rw [hlast] at h1
    rw [List.getLast?_map, List.getLast?_append, List.getLast?_map]
    simp only [decide_true]
    rw [linspace01_getLast _ (by omega)]
    simp only [Option.map_some, Option.some_or]
    congr 2
    have h0 : (0 + m + 1) % vertices.length = 0 := by rw [hm]; simp
    simp only [polygonSide, h0]
    apply V3.ext <;> simp

example : (polygonWire id (rectangleVertices 1 2) none 101).getLast? = some ⟨1, 2, 0⟩ := by
  have := (C20_polygon_closed (rectangleVertices 1 2) none 101 (by simp [rectangleVertices_eq])
    (by simp [rectangleVertices_eq])).2
  simpa [rectangleVertices_eq, toParent] using this

/-- The boundary of a closed sector: the two arms and the arc. -/
def OnSectorBoundary (radius start stop : ℝ) (q : V3) : Prop :=
  ∃ ρ θ : ℝ, q = ⟨ρ * Real.cos θ, ρ * Real.sin θ, 0⟩ ∧
    ((0 ≤ ρ ∧ ρ ≤ radius ∧ (θ = start ∨ θ = stop)) ∨
      (ρ = radius ∧ start ≤ θ ∧ θ ≤ stop))

/-- C20: whatever the rounding, every sample of the wire of a sector lies on its boundary. -/
theorem C20_sector_boundary (rnd : ℚ → ℚ) (radius start stop : ℝ) (hr : 0 ≤ radius)
    (hs : start ≤ stop) (g : Option Rigid) (num : ℕ) (p : V3)
    (h : p ∈ sectorWire rnd radius start stop g num) :
    ∃ q, OnSectorBoundary radius start stop q ∧ p = toParent g q := by
  simp only [sectorWire, List.mem_map] at h
  obtain ⟨q, hq, rfl⟩ := h
  refine ⟨q, ?_, rfl⟩
  obtain ⟨k, t, hk, h0, h1, rfl⟩ := mem_sampleSides hq
  rw [sideCounts_length] at hk
  rw [zero_add]
  interval_cases k
  · refine ⟨radius * t, start, by simp [sectorSide], Or.inl ⟨by positivity, ?_, Or.inl rfl⟩⟩
    nlinarith
  · refine ⟨radius, start + (stop - start) * t, by simp [sectorSide], Or.inr ⟨rfl, ?_, ?_⟩⟩ <;>
      nlinarith
  · refine ⟨radius * (1 - t), stop, by simp [sectorSide], Or.inl ⟨?_, ?_, Or.inr rfl⟩⟩ <;>
      nlinarith

/-- C20: the wire of a sector has exactly the requested number of samples (exact arithmetic). -/
theorem C20_sector_count (radius start stop : ℝ) (g : Option Rigid) (num : ℕ) :
    (sectorWire id radius start stop g num).length = num := by
  simp only [sectorWire]
  have := counts_total (rnd := id) (num := num) (n := 3) (by norm_num) (fun _ _ => rfl)
  have e : (num : ℚ) / 3 = (num : ℚ) / ((3 : ℕ) : ℚ) := by norm_num
  rw [List.length_map, sampleSides_length, e, this, List.map_map]
  have := sum_counts num 3 3
  rw [Nat.mul_div_cancel_left _ (by norm_num)] at this
  exact this

example : (sectorWire id 1 0 π none 101).length = 101 := C20_sector_count 1 0 π none 101

example : ∃ q, OnSectorBoundary 1 0 π q ∧ (⟨0, 0, 0⟩ : V3) = toParent none q := by
  refine C20_sector_boundary id 1 0 π (by norm_num) pi_pos.le none 3 ⟨0, 0, 0⟩ ?_
  have := counts_total (rnd := id) (num := 3) (n := 3) (by norm_num) (fun _ _ => rfl)
  simp only [sectorWire]
  have e : ((3 : ℕ) : ℚ) / 3 = ((3 : ℕ) : ℚ) / ((3 : ℕ) : ℚ) := by norm_num
  rw [e, this]
  simp [sampleSides, linspace01, sectorSide, toParent, List.range_succ]

/-- C20: wires of circles and ellipses have the requested number of samples, all on the
boundary. -/
theorem C20_ellipse (rx ry : ℝ) (hx : rx ≠ 0) (hy : ry ≠ 0) (g : Option Rigid) (num : ℕ) :
    (ellipseWire rx ry g num).length = num ∧
    ∀ p ∈ ellipseWire rx ry g num, ∃ q : V3, p = toParent g q ∧ q.z = 0 ∧
      q.x ^ 2 / rx ^ 2 + q.y ^ 2 / ry ^ 2 = 1 := by
  constructor
  · simp [ellipseWire, linspace01_length]
  · intro p hp
    simp only [ellipseWire, List.mem_map] at hp
    obtain ⟨q, ⟨t, -, rfl⟩, rfl⟩ := hp
    refine ⟨_, rfl, rfl, ?_⟩
    simp only [mul_pow]
    rw [mul_div_cancel_left₀ _ (pow_ne_zero 2 hx), mul_div_cancel_left₀ _ (pow_ne_zero 2 hy)]
    exact Real.cos_sq_add_sin_sq _

/-- C20: the samples of a circle or ellipse go all the way around: every point of the boundary is
within `π * R / (num - 1)` of a sample in both coordinates, for `R` the larger radius, and the last
sample is the first one. -/
theorem C20_ellipse_around (rx ry R : ℝ) (hx : |rx| ≤ R) (hy : |ry| ≤ R) (hx0 : rx ≠ 0) (hy0 : ry ≠ 0)
    (g : Option Rigid) (num : ℕ) (hn : 2 ≤ num) :
    (∃ p, (ellipseWire rx ry g num).head? = some p ∧ (ellipseWire rx ry g num).getLast? = some p) ∧
    ∀ x y : ℝ, x ^ 2 / rx ^ 2 + y ^ 2 / ry ^ 2 = 1 →
      ∃ q : V3, toParent g q ∈ ellipseWire rx ry g num ∧ q.z = 0 ∧
        |q.x - x| ≤ π * R / (num - 1) ∧ |q.y - y| ≤ π * R / (num - 1) := by
  obtain ⟨m, rfl⟩ : ∃ m, num = m + 2 := ⟨num - 2, by omega⟩
  have hm : (0 : ℝ) < m + 1 := by positivity
  have hcast : ((m + 2 : ℕ) : ℝ) - 1 = m + 1 := by push_cast; ring
  have hmem : ∀ k : ℕ, k ≤ m + 1 → toParent g ⟨rx * Real.cos (2 * π * (k / (m + 1))),
      ry * Real.sin (2 * π * (k / (m + 1))), 0⟩ ∈ ellipseWire rx ry g (m + 2) := by
    intro k hk
    unfold ellipseWire
    refine List.mem_map.2 ⟨_, List.mem_map.2 ⟨(k / (m + 1) : ℝ), ?_, rfl⟩, rfl⟩
    simp only [linspace01, List.mem_map, List.mem_range]
    refine ⟨k, by omega, ?_⟩
    simp
  constructor
  · refine ⟨toParent g ⟨rx, 0, 0⟩, ?_, ?_⟩
    · simp [ellipseWire, linspace01, List.range_succ_eq_map]
    · unfold ellipseWire
      rw [List.getLast?_map, List.getLast?_map, linspace01_getLast _ hn]
      simp
  · intro x y hxy
    -- the angle of the point
    obtain ⟨θ, h0, h1, hc, hs⟩ : ∃ θ : ℝ, 0 ≤ θ ∧ θ ≤ 2 * π ∧ x = rx * Real.cos θ ∧
        y = ry * Real.sin θ := by
      have hu : (x / rx) ^ 2 + (y / ry) ^ 2 = 1 := by rw [div_pow, div_pow]; exact hxy
      have hnorm : ‖(⟨x / rx, y / ry⟩ : ℂ)‖ = 1 := by
        rw [Complex.norm_def, Complex.normSq_mk, ← sq, ← sq, hu, Real.sqrt_one]
      have hne : (⟨x / rx, y / ry⟩ : ℂ) ≠ 0 := by
        intro h
        rw [h, norm_zero] at hnorm
        exact zero_ne_one hnorm
      have hcos := Complex.cos_arg hne
      have hsin := Complex.sin_arg (⟨x / rx, y / ry⟩ : ℂ)
      rw [hnorm, div_one] at hcos hsin
      have ha1 := Complex.neg_pi_lt_arg (⟨x / rx, y / ry⟩ : ℂ)
      have ha2 := Complex.arg_le_pi (⟨x / rx, y / ry⟩ : ℂ)
      have hpi := Real.pi_pos
      by_cases ha : 0 ≤ Complex.arg ⟨x / rx, y / ry⟩
      · refine ⟨_, ha, by linarith, ?_, ?_⟩
        · rw [hcos]; field_simp
        · rw [hsin]; field_simp
      · push Not at ha
        refine ⟨Complex.arg ⟨x / rx, y / ry⟩ + 2 * π, by linarith, by linarith, ?_, ?_⟩
        · rw [Real.cos_add_two_pi, hcos]; field_simp
        · rw [Real.sin_add_two_pi, hsin]; field_simp
    -- the nearest sample
    have hpi := Real.pi_pos
    let t : ℝ := θ / (2 * π) * (m + 1)
    have ht0 : 0 ≤ t := by positivity
    have ht1 : t ≤ m + 1 := by
      have : θ / (2 * π) ≤ 1 := by rw [div_le_one (by positivity)]; exact h1
      calc t ≤ 1 * (m + 1) := mul_le_mul_of_nonneg_right this hm.le
        _ = m + 1 := one_mul _
    have hr := abs_sub_round t
    have hk0 : 0 ≤ round t := by
      rw [round_eq]
      apply Int.floor_nonneg.2
      linarith
    have hk1 : round t ≤ m + 1 := by
      rw [round_eq]
      have : ⌊t + 1 / 2⌋ < (m : ℤ) + 2 := by
        rw [Int.floor_lt]
        push_cast
        linarith
      omega
    obtain ⟨k, hk⟩ := Int.eq_ofNat_of_zero_le hk0
    rw [hk] at hr hk1
    have hkm : k ≤ m + 1 := by exact_mod_cast hk1
    have hdiff : |2 * π * (k / (m + 1)) - θ| ≤ π / (m + 1) := by
      have e : 2 * π * (k / (m + 1)) - θ = -(2 * π / (m + 1)) * (t - k) := by
        simp only [t]
        field_simp
        ring
      rw [e, abs_mul, abs_neg, abs_of_pos (by positivity : 0 < 2 * π / (m + 1))]
      have hr' : |t - k| ≤ 1 / 2 := by exact_mod_cast hr
      calc 2 * π / (m + 1) * |t - k| ≤ 2 * π / (m + 1) * (1 / 2) :=
            mul_le_mul_of_nonneg_left hr' (by positivity)
        _ = π / (m + 1) := by ring
    have hR : 0 ≤ R := le_trans (abs_nonneg _) hx
    refine ⟨_, hmem k hkm, rfl, ?_, ?_⟩
    · rw [hcast, hc]
      dsimp only
      rw [← mul_sub, abs_mul]
      have := Real.abs_cos_sub_cos_le (2 * π * (k / (m + 1))) θ
      calc _ ≤ R * (π / (m + 1)) := mul_le_mul hx (this.trans hdiff) (abs_nonneg _) hR
        _ = _ := by ring
    · rw [hcast, hs]
      dsimp only
      rw [← mul_sub, abs_mul]
      have := Real.abs_sin_sub_sin_le (2 * π * (k / (m + 1))) θ
      calc _ ≤ R * (π / (m + 1)) := mul_le_mul hy (this.trans hdiff) (abs_nonneg _) hR
        _ = _ := by ring

/-- The topmost point of an ellipse, from 101 samples. -/
example : ∃ q : V3, toParent none q ∈ ellipseWire 2 3 none 101 ∧ q.z = 0 ∧
    |q.x - 0| ≤ π * 3 / ((101 : ℕ) - 1) ∧ |q.y - 3| ≤ π * 3 / ((101 : ℕ) - 1) :=
  (C20_ellipse_around 2 3 3 (by norm_num) (by norm_num) (by norm_num) (by norm_num) none 101
    (by norm_num)).2 0 3 (by norm_num)

example : (ellipseWire 2 3 none 101).length = 101 :=
  (C20_ellipse 2 3 (by norm_num) (by norm_num) none 101).1

/-- C19: wires of polygons are within the bounds. -/
theorem C19_polygon_wire (rnd : ℚ → ℚ) (vertices : List V3) (g : Option Rigid) (num : ℕ) (p : V3)
    (h : p ∈ polygonWire rnd vertices g num) :
    Within (polygonLower vertices g) p (polygonUpper vertices g) := by
  obtain ⟨v, hv, hp⟩ := C20_polygon_boundary rnd vertices g num p h
  have hw : (v + 1) % vertices.length < vertices.length := Nat.mod_lt _ (by omega)
  have hget (i : ℕ) (hi : i < vertices.length) :
      toParent g (vertices.getD i 0) = (vertices.map (toParent g)).getD i 0 := by
    simp [List.getD, hi]
  rw [hget _ hv, hget _ hw] at hp
  have key {f : V3 → ℝ} (hf : ∃ (n : V3) (b : ℝ), ∀ v, f v = n.dot v + b) :=
    onSegment_hull (vertices.map (toParent g)) v _ (by simpa using hv) (by simpa using hw) hp hf
  exact ⟨key ⟨⟨1, 0, 0⟩, 0, fun v => by simp [dot]⟩, key ⟨⟨0, 1, 0⟩, 0, fun v => by simp [dot]⟩,
    key ⟨⟨0, 0, 1⟩, 0, fun v => by simp [dot]⟩⟩

/-- C19: wires of sectors are within the bounds, for an opening of less than a full turn. -/
theorem C19_sector_wire_partial (rnd : ℚ → ℚ) (radius start stop : ℝ) (hr : 0 ≤ radius)
    (h0 : start ≤ stop) (h1 : stop - start < 2 * π) (g : Option Rigid) (num : ℕ) (p : V3)
    (h : p ∈ sectorWire rnd radius start stop g num) :
    Within (sectorLower radius start stop g) p (sectorUpper radius start stop g) := by
  obtain ⟨q, ⟨ρ, θ, rfl, hq⟩, rfl⟩ := C20_sector_boundary rnd radius start stop hr h0 g num p h
  apply closedSector_within h1
  rcases hq with ⟨h2, h3, rfl | rfl⟩ | ⟨rfl, h2, h3⟩
  · exact ⟨ρ, θ, h2, h3, le_refl _, h0, rfl⟩
  · exact ⟨ρ, θ, h2, h3, h0, le_refl _, rfl⟩
  · exact ⟨ρ, θ, hr, le_refl _, h2, h3, rfl⟩

/-- C19: wires of ellipses are within the bounds. -/
theorem C19_ellipse_wire (rx ry : ℝ) (hx : rx ≠ 0) (hy : ry ≠ 0) (g : Option Rigid) (num : ℕ)
    (p : V3) (h : p ∈ ellipseWire rx ry g num) :
    Within (ellipseLower rx ry g) p (ellipseUpper rx ry g) := by
  obtain ⟨q, rfl, hz, hq⟩ := (C20_ellipse rx ry hx hy g num).2 p h
  apply C19_ellipse_partial rx ry hx hy g _ (by simpa using hz)
  rw [C18_ellipse rx ry hx hy]
  simp [Accepts, hq]

/-- C19: wires of circles are within the bounds. -/
theorem C19_circle_wire (r : ℝ) (hr : 0 < r) (g : Option Rigid) (num : ℕ)
    (p : V3) (h : p ∈ ellipseWire r r g num) :
    Within (circleLower r g) p (circleUpper r g) := by
  obtain ⟨q, rfl, hz, hq⟩ := (C20_ellipse r r hr.ne' hr.ne' g num).2 p h
  apply C19_circle_partial r g _ (by simpa using hz)
  rw [C18_circle]
  have : q.x ^ 2 + q.y ^ 2 = r ^ 2 := by field_simp at hq; linarith
  simp [Accepts, this, hr.le]

example : Within (circleLower 2 none) ⟨2, 0, 0⟩ (circleUpper 2 none) :=
  C19_circle_wire 2 (by norm_num) none 1 ⟨2, 0, 0⟩ (by
    simp [ellipseWire, linspace01, toParent])

end Optika
