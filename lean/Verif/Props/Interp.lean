import Verif.Lemmas.Interp

/-!
# Tabulated quantities (C52)
-/

namespace Optika

/-- **C52**: between two neighbouring points of the table the value is on the segment between them. -/
theorem C52_between {t : List (ℝ × ℝ)} (ht : Increasing t) (left right : Option ℝ) {i : ℕ}
    (hi : i + 1 < t.length) {x : ℝ} (h1 : t[i].1 ≤ x) (h2 : x < t[i + 1].1) :
    interp left right t x = some (((t[i + 1].1 - x) * t[i].2 + (x - t[i].1) * t[i + 1].2)
      / (t[i + 1].1 - t[i].1)) :=
  interp_between ht left right hi h1 h2

/-- **C52**: before the table the value is that of the first point, ... -/
theorem C52_left {p : ℝ × ℝ} {t : List (ℝ × ℝ)} {x : ℝ} (h : x < p.1) (right : Option ℝ) :
    interp none right (p :: t) x = some p.2 := by
  simp [interp, h]

/-- ... and after the table that of the last point. -/
theorem C52_right {t : List (ℝ × ℝ)} (ht : Increasing t) (hne : t ≠ []) {x : ℝ}
    (h : (t.getLast hne).1 ≤ x) (left : Option ℝ) :
    interp left none t x = some (t.getLast hne).2 := by
  rw [interp_right ht hne h]
  simp

/-- **C52**: at every point of the table the value is the tabulated one (the last one if a
wavelength is listed more than once). -/
theorem C52_node {t : List (ℝ × ℝ)} (ht : Increasing t) (left right : Option ℝ) {i : ℕ}
    (hi : i < t.length) (hlast : ∀ hi' : i + 1 < t.length, t[i].1 < t[i + 1].1) :
    interp left right t t[i].1 = some t[i].2 := by
  by_cases hi' : i + 1 < t.length
  · have h := hlast hi'
    rw [interp_between ht left right hi' le_rfl h]
    have : t[i + 1].1 - t[i].1 ≠ 0 := by linarith
    unfold lerp
    rw [sub_self, zero_mul, add_zero, mul_div_cancel_left₀ _ this]
  · have hne : t ≠ [] := by rintro rfl; simp at hi
    have e : t[i] = t.getLast hne := by
      rw [List.getLast_eq_getElem]
      congr 1
      omega
    rw [e, interp_right ht hne le_rfl, if_pos rfl]

/-- **C52**: values are in every interval that contains all tabulated values. -/
theorem C52_range {t : List (ℝ × ℝ)} (ht : Increasing t) (hne : t ≠ []) {a b : ℝ}
    (hab : ∀ p ∈ t, a ≤ p.2 ∧ p.2 ≤ b) (x : ℝ) :
    ∃ y, interp none none t x = some y ∧ a ≤ y ∧ y ≤ b := by
  rcases interp_cases hne none none x with ⟨_, h⟩ | ⟨i, hi, h1, h2, h⟩ | ⟨_, h⟩ | ⟨_, h⟩
  · exact ⟨_, h, hab _ (List.head_mem hne)⟩
  · exact ⟨_, h, lerp_between h1 h2 (hab _ (List.getElem_mem _)) (hab _ (List.getElem_mem _))⟩
  · exact ⟨_, h, hab _ (List.getLast_mem hne)⟩
  · exact ⟨_, h, hab _ (List.getLast_mem hne)⟩

/-- **C52**: between two points the value is between theirs. -/
theorem C52_local {t : List (ℝ × ℝ)} (ht : Increasing t) (left right : Option ℝ) {i : ℕ}
    (hi : i + 1 < t.length) {x : ℝ} (h1 : t[i].1 ≤ x) (h2 : x < t[i + 1].1) :
    ∃ y, interp left right t x = some y ∧ min t[i].2 t[i + 1].2 ≤ y
      ∧ y ≤ max t[i].2 t[i + 1].2 := by
  exact ⟨_, interp_between ht left right hi h1 h2, lerp_between h1 h2
    ⟨min_le_left _ _, le_max_left _ _⟩ ⟨min_le_right _ _, le_max_right _ _⟩⟩

/-- Some points of a table. -/
example : Increasing [(1, 2), (2, 5), (4, 3)] := by
  simp only [Increasing, List.pairwise_cons, List.mem_cons, List.not_mem_nil, or_false]
  refine ⟨?_, ?_, ?_, List.Pairwise.nil⟩
  · rintro q (rfl | rfl) <;> norm_num
  · rintro q rfl; norm_num
  · simp

/-- **C52**: measured efficiencies between zero and one give efficiencies between zero and one. -/
theorem C52_efficiency {t : List (ℝ × ℝ)} (ht : Increasing t) (hne : t ≠ [])
    (h : ∀ p ∈ t, 0 ≤ p.2 ∧ p.2 ≤ 1) (rays : Ray) :
    ∃ y, measuredEfficiency t rays = some y ∧ 0 ≤ y ∧ y ≤ 1 :=
  C52_range ht hne h rays.wavelength

/-- **C52**: a table of passive optical constants gives a passive material at every wavelength, and
absorption is not negative. -/
theorem C52_passive {t : List (ℝ × ℝ × ℝ)} (ht : t.Pairwise fun p q => p.1 ≤ q.1) (hne : t ≠ [])
    (h : ∀ p ∈ t, 0 ≤ p.2.1 ∧ 0 ≤ p.2.2) {w : ℝ} (hw : 0 < w) :
    ∃ n k a, chemicalN t w = some (n, k) ∧ 0 ≤ n ∧ 0 ≤ k ∧ chemicalAbsorption t w = some a
      ∧ 0 ≤ a := by
  have key : ∀ f : ℝ × ℝ × ℝ → ℝ, (∀ p ∈ t, 0 ≤ f p) →
      ∃ y, interp none none (t.map fun q => (q.1, f q)) w = some y ∧ 0 ≤ y := by
    intro f hf
    obtain ⟨b, hb⟩ : ∃ b, ∀ p ∈ t, f p ≤ b := by
      refine ⟨(t.map f).foldr max 0, fun p hp => ?_⟩
      clear hne ht h hf
      induction t with
      | nil => simp at hp
      | cons q t ih =>
        rcases List.mem_cons.1 hp with rfl | hp
        · exact le_max_left _ _
        · exact (ih hp).trans (le_max_right _ _)
    obtain ⟨y, h1, h2, -⟩ := C52_range (t := t.map fun q => (q.1, f q)) (a := 0) (b := b)
      (by unfold Increasing; rw [List.pairwise_map]; exact ht) (by simpa using hne)
      (by
        intro p hp
        obtain ⟨q, hq, rfl⟩ := List.mem_map.1 hp
        exact ⟨hf q hq, hb q hq⟩) w
    exact ⟨y, h1, h2⟩
  obtain ⟨n, hn, hn0⟩ := key (fun q => q.2.1) fun p hp => (h p hp).1
  obtain ⟨k, hk, hk0⟩ := key (fun q => q.2.2) fun p hp => (h p hp).2
  have e : chemicalN t w = some (n, k) := by
    unfold chemicalN
    rw [hn, hk]
    rfl
  refine ⟨n, k, 4 * Real.pi * k / w, e, hn0, hk0, ?_, by positivity⟩
  unfold chemicalAbsorption
  rw [e]
  exact div?_of_ne hw.ne'

/-- **C52**: optical constants are the tabulated ones at the points of the table, ... -/
theorem C52_chemical_node {t : List (ℝ × ℝ × ℝ)} (ht : t.Pairwise fun p q => p.1 ≤ q.1) {i : ℕ}
    (hi : i < t.length) (hlast : ∀ hi' : i + 1 < t.length, t[i].1 < t[i + 1].1) :
    chemicalN t t[i].1 = some (t[i].2.1, t[i].2.2) := by
  have key : ∀ f : ℝ × ℝ × ℝ → ℝ,
      interp none none (t.map fun q => (q.1, f q)) t[i].1 = some (f t[i]) := by
    intro f
    have := C52_node (t := t.map fun q => (q.1, f q)) (i := i)
      (by unfold Increasing; rw [List.pairwise_map]; exact ht) none none (by simpa using hi)
      (by simpa using hlast)
    simpa using this
  unfold chemicalN
  rw [key fun q => q.2.1, key fun q => q.2.2]
  rfl

/-- ... real and imaginary part are linear in the wavelength between the points, ... -/
theorem C52_chemical_between {t : List (ℝ × ℝ × ℝ)} (ht : t.Pairwise fun p q => p.1 ≤ q.1)
    {i : ℕ} (hi : i + 1 < t.length) {s : ℝ} (h0 : 0 ≤ s) (h1 : s < 1)
    (hlt : t[i].1 < t[i + 1].1) :
    chemicalN t ((1 - s) * t[i].1 + s * t[i + 1].1)
      = some ((1 - s) * t[i].2.1 + s * t[i + 1].2.1, (1 - s) * t[i].2.2 + s * t[i + 1].2.2) := by
  have key : ∀ f : ℝ × ℝ × ℝ → ℝ,
      interp none none (t.map fun q => (q.1, f q)) ((1 - s) * t[i].1 + s * t[i + 1].1)
        = some ((1 - s) * f t[i] + s * f t[i + 1]) := by
    intro f
    have hd : t[i + 1].1 - t[i].1 ≠ 0 := by linarith
    have := C52_between (t := t.map fun q => (q.1, f q)) (i := i)
      (by unfold Increasing; rw [List.pairwise_map]; exact ht) none none (by simpa using hi)
      (x := (1 - s) * t[i].1 + s * t[i + 1].1)
      (by simp only [List.getElem_map]; nlinarith) (by simp only [List.getElem_map]; nlinarith)
    rw [this]
    simp only [List.getElem_map, Option.some.injEq]
    rw [div_eq_iff hd]
    ring
  unfold chemicalN
  rw [key fun q => q.2.1, key fun q => q.2.2]
  rfl

/-- ... and the absorption at a point of the table is `4πk/λ`. -/
theorem C52_chemical_absorption {t : List (ℝ × ℝ × ℝ)} (ht : t.Pairwise fun p q => p.1 ≤ q.1)
    {i : ℕ} (hi : i < t.length) (hlast : ∀ hi' : i + 1 < t.length, t[i].1 < t[i + 1].1)
    (h0 : t[i].1 ≠ 0) :
    chemicalAbsorption t t[i].1 = some (4 * Real.pi * t[i].2.2 / t[i].1) := by
  unfold chemicalAbsorption
  rw [C52_chemical_node ht hi hlast]
  exact div?_of_ne h0

/-- **C52**: the measured efficiency of a mirror or of rulings and the effective area are linear in
the wavelength between neighbouring measurements, including the measurements themselves. -/
theorem C52_efficiency_between {t : List (ℝ × ℝ)} (ht : Increasing t) {i : ℕ}
    (hi : i + 1 < t.length) {s : ℝ} (h0 : 0 ≤ s) (h1 : s < 1) (hlt : t[i].1 < t[i + 1].1)
    (rays : Ray) (hw : rays.wavelength = (1 - s) * t[i].1 + s * t[i + 1].1) :
    measuredEfficiency t rays = some ((1 - s) * t[i].2 + s * t[i + 1].2)
      ∧ effectiveArea t rays.wavelength = some ((1 - s) * t[i].2 + s * t[i + 1].2) := by
  have hd : t[i + 1].1 - t[i].1 ≠ 0 := by linarith
  have h : interp none none t rays.wavelength = some ((1 - s) * t[i].2 + s * t[i + 1].2) := by
    rw [C52_between ht none none hi (x := rays.wavelength) (by rw [hw]; nlinarith)
      (by rw [hw]; nlinarith), hw, Option.some.injEq, div_eq_iff hd]
    ring
  exact ⟨h, h⟩

/-- **C52**: outside the measured range they are constant. -/
theorem C52_efficiency_outside {p : ℝ × ℝ} {t : List (ℝ × ℝ)} (ht : Increasing (p :: t))
    (rays : Ray) :
    (rays.wavelength ≤ p.1 → (∀ q ∈ t, p.1 < q.1) →
      measuredEfficiency (p :: t) rays = some p.2 ∧ effectiveArea (p :: t) rays.wavelength = some p.2)
    ∧ (((p :: t).getLast (List.cons_ne_nil p t)).1 ≤ rays.wavelength →
      measuredEfficiency (p :: t) rays = some ((p :: t).getLast (List.cons_ne_nil p t)).2
      ∧ effectiveArea (p :: t) rays.wavelength
        = some ((p :: t).getLast (List.cons_ne_nil p t)).2) := by
  constructor
  · intro h hq
    have : interp none none (p :: t) rays.wavelength = some p.2 := by
      rcases h.lt_or_eq with h | h
      · exact C52_left h none
      · rw [h]
        exact C52_node (i := 0) ht none none (by simp) fun hi => hq _ (by simp)
    exact ⟨this, this⟩
  · intro h
    have := C52_right ht (List.cons_ne_nil p t) h none
    exact ⟨this, this⟩

/-- Halfway between the measurements 2 and 5. -/
example : effectiveArea [(1, 2), (2, 5), (4, 3)] (3 / 2) = some (7 / 2) := by
  norm_num [effectiveArea, interp, interpFrom]

end Optika
