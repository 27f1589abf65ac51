import Verif.Model.Target

/-!
# C107: the resolution target
-/

namespace Optika

/-! ## Specification -/

/-- The pixel in row `i`, counted from the bottom of the picture, and column `j`. -/
def pixelAt (picture : List (List (List ℝ))) (i j : ℕ) : Option (List ℝ) :=
  picture.reverse[i]?.bind fun row => row[j]?

/-- The value of the target in row `i` and column `j`. -/
def valueAt (target : List (List ℝ)) (i j : ℕ) : Option ℝ := target[i]?.bind fun row => row[j]?

/-- A picture without negative channels. -/
def NonnegPicture (picture : List (List (List ℝ))) : Prop := ∀ row ∈ picture, ∀ px ∈ row, ∀ c ∈ px, 0 ≤ c

/-! ## Proofs -/

theorem mapM_total {α β : Type} (f : α → β) (l : List α) : l.mapM (fun a => some (f a)) = some (l.map f) := by
  have := List.mapM_pure (m := Option) (l := l) (f := f)
  simpa using this

theorem pixelAt_mem {picture : List (List (List ℝ))} {i j : ℕ} {px : List ℝ} (h : pixelAt picture i j = some px) :
    ∃ row ∈ picture, px ∈ row := by
  obtain ⟨row, h1, h2⟩ := Option.bind_eq_some_iff.1 h
  exact ⟨row, List.mem_reverse.1 (List.mem_of_getElem? h1), List.mem_of_getElem? h2⟩

theorem mem_pixelAt {picture : List (List (List ℝ))} {row : List (List ℝ)} {px : List ℝ} (h : row ∈ picture) (h' : px ∈ row) :
    ∃ i j, pixelAt picture i j = some px := by
  obtain ⟨i, hi⟩ := List.getElem?_of_mem (List.mem_reverse.2 h)
  obtain ⟨j, hj⟩ := List.getElem?_of_mem h'
  exact ⟨i, j, by simp [pixelAt, hi, hj]⟩

theorem mem_brightness {picture : List (List (List ℝ))} {b : ℝ} :
    b ∈ (picture.reverse.map fun row => row.map List.sum).flatten ↔ ∃ i j px, pixelAt picture i j = some px ∧ px.sum = b := by
  simp only [List.mem_flatten, List.mem_map, List.mem_reverse]
  constructor
  · rintro ⟨_, ⟨row, hr, rfl⟩, hb⟩
    obtain ⟨px, hp, rfl⟩ := List.mem_map.1 hb
    obtain ⟨i, j, h⟩ := mem_pixelAt hr hp
    exact ⟨i, j, px, h, rfl⟩
  · rintro ⟨i, j, px, h, rfl⟩
    obtain ⟨row, hr, hp⟩ := pixelAt_mem h
    exact ⟨_, ⟨row, hr, rfl⟩, List.mem_map.2 ⟨px, hp, rfl⟩⟩

theorem airforce_eq {picture : List (List (List ℝ))} {m : ℝ}
    (hm : (picture.reverse.map fun row => row.map List.sum).flatten.max? = some m) (h0 : m ≠ 0) :
    airforce picture = some (picture.reverse.map fun row => row.map fun px => 1 - px.sum / m) := by
  unfold airforce
  simp only [hm, Option.bind_eq_bind, Option.bind_some, div?_of_ne h0, Option.map_some, mapM_total, List.map_map]
  congr 2
  funext row
  simp only [Function.comp_apply, List.map_map]
  congr 1
  funext px
  simp only [Function.comp_apply]
  ring

theorem sum_nonneg_of_picture {picture : List (List (List ℝ))} (hc : NonnegPicture picture) {i j : ℕ} {px : List ℝ}
    (h : pixelAt picture i j = some px) : 0 ≤ px.sum := by
  obtain ⟨row, hr, hp⟩ := pixelAt_mem h
  exact List.sum_nonneg fun c h => hc row hr px hp c h

/-- **C107**: there is a target whenever the picture is not black everywhere. -/
theorem C107_exists {picture : List (List (List ℝ))} (hc : NonnegPicture picture) :
    (∃ t, airforce picture = some t) ↔ ∃ i j px, pixelAt picture i j = some px ∧ px.sum ≠ 0 := by
  cases hm : (picture.reverse.map fun row => row.map List.sum).flatten.max? with
  | none =>
    have : airforce picture = none := by unfold airforce; simp only [hm]; rfl
    rw [List.max?_eq_none_iff] at hm
    simp only [this, reduceCtorEq, exists_false, false_iff, not_exists, not_and]
    intro i j px h
    have := (mem_brightness (picture := picture)).2 ⟨i, j, px, h, rfl⟩
    rw [hm] at this
    simp at this
  | some m =>
    obtain ⟨h1, h2⟩ := List.max?_eq_some_iff.1 hm
    by_cases h0 : m = 0
    · subst h0
      constructor
      · rintro ⟨t, h⟩
        exfalso
        obtain ⟨i, j, px, hp, -⟩ := mem_brightness.1 h1
        obtain ⟨row, hr, hpx⟩ := pixelAt_mem hp
        unfold airforce at h
        simp only [hm, Option.bind_eq_bind, Option.bind_some, div?_eq_none.2, Option.map_none] at h
        have key : ∀ l : List (List ℝ), (∃ r ∈ l, r ≠ []) → l.mapM (fun row => row.mapM fun _ => (none : Option ℝ)) = none := by
          intro l
          induction l with
          | nil => simp
          | cons r l ih =>
            rintro ⟨r', hr', hne⟩
            rw [List.mapM_cons]
            cases r with
            | cons a r => simp [List.mapM_cons]
            | nil =>
              rcases List.mem_cons.1 hr' with rfl | h
              · exact absurd rfl hne
              · simp [ih ⟨r', h, hne⟩]
        rw [key] at h
        · simp at h
        · exact ⟨row.map List.sum, List.mem_map.2 ⟨row, List.mem_reverse.2 hr, rfl⟩,
            fun e => by rw [List.map_eq_nil_iff] at e; rw [e] at hpx; simp at hpx⟩
      · rintro ⟨i, j, px, h, hne⟩
        exfalso
        have := h2 _ (mem_brightness.2 ⟨i, j, px, h, rfl⟩)
        exact hne (le_antisymm this (sum_nonneg_of_picture hc h))
    · obtain ⟨i, j, px, hp, e⟩ := mem_brightness.1 h1
      exact ⟨fun _ => ⟨i, j, px, hp, by rw [e]; exact h0⟩, fun _ => ⟨_, airforce_eq hm h0⟩⟩

/-- The brightest pixel. -/
theorem airforce_brightest {picture : List (List (List ℝ))} {t : List (List ℝ)} (h : airforce picture = some t)
    (hc : NonnegPicture picture) : ∃ m, 0 < m ∧ (∀ i j px, pixelAt picture i j = some px → px.sum ≤ m) ∧
      (∃ i j px, pixelAt picture i j = some px ∧ px.sum = m) ∧
      t = picture.reverse.map fun row => row.map fun px => 1 - px.sum / m := by
  obtain ⟨i, j, px, hp, hne⟩ := (C107_exists hc).1 ⟨t, h⟩
  cases hm : (picture.reverse.map fun row => row.map List.sum).flatten.max? with
  | none =>
    have : airforce picture = none := by unfold airforce; simp only [hm]; rfl
    rw [this] at h
    simp at h
  | some m =>
    obtain ⟨h1, h2⟩ := List.max?_eq_some_iff.1 hm
    have hle := fun i j px hp => h2 _ (mem_brightness.2 ⟨i, j, px, hp, rfl⟩)
    have hpos : 0 < m := lt_of_lt_of_le (lt_of_le_of_ne (sum_nonneg_of_picture hc hp) hne.symm) (hle i j px hp)
    rw [airforce_eq hm hpos.ne', Option.some.injEq] at h
    exact ⟨m, hpos, hle, mem_brightness.1 h1, h.symm⟩

/-- **C107**: the target has the rows and columns of the picture, from the bottom to the top.  Its values are between zero,
for the brightest pixels, and one, for the black ones, and fall linearly with the brightness in between. -/
theorem C107_target {picture : List (List (List ℝ))} {t : List (List ℝ)} (h : airforce picture = some t)
    (hc : NonnegPicture picture) :
    (∀ i j, valueAt t i j = none ↔ pixelAt picture i j = none) ∧
    (∀ i j px v, pixelAt picture i j = some px → valueAt t i j = some v → 0 ≤ v ∧ v ≤ 1 ∧ (v = 1 ↔ px.sum = 0) ∧
      (v = 0 ↔ ∀ i' j' px', pixelAt picture i' j' = some px' → px'.sum ≤ px.sum)) ∧
    ∃ k > 0, ∀ i j i' j' px px' v v', pixelAt picture i j = some px → pixelAt picture i' j' = some px' →
      valueAt t i j = some v → valueAt t i' j' = some v' → v - v' = k * (px'.sum - px.sum) := by
  obtain ⟨m, hm, hle, ⟨i0, j0, px0, hp0, e0⟩, rfl⟩ := airforce_brightest h hc
  have hv : ∀ i j, valueAt (picture.reverse.map fun row => row.map fun px => 1 - px.sum / m) i j
      = (pixelAt picture i j).map fun px => 1 - px.sum / m := by
    intro i j
    simp only [valueAt, pixelAt, List.getElem?_map]
    cases picture.reverse[i]? <;> simp
  have hv' : ∀ {i j px v}, pixelAt picture i j = some px →
      valueAt (picture.reverse.map fun row => row.map fun px => 1 - px.sum / m) i j = some v → v = 1 - px.sum / m := by
    intro i j px v hp h
    rw [hv, hp, Option.map_some, Option.some.injEq] at h
    exact h.symm
  refine ⟨fun i j => by rw [hv, Option.map_eq_none_iff], fun i j px v hp h => ?_, 1 / m, by positivity, ?_⟩
  · rw [hv' hp h]
    have h1 := hle i j px hp
    have h2 := sum_nonneg_of_picture hc hp
    have h3 : px.sum / m ≤ 1 := (div_le_one hm).2 h1
    have h4 : 0 ≤ px.sum / m := div_nonneg h2 hm.le
    refine ⟨by linarith, by linarith, ?_, ?_⟩
    · rw [sub_eq_self, div_eq_zero_iff]
      exact ⟨fun h => h.resolve_right hm.ne', Or.inl⟩
    · rw [sub_eq_zero, eq_comm, div_eq_one_iff_eq hm.ne']
      constructor
      · intro h i' j' px' hp'; rw [h]; exact hle i' j' px' hp'
      · intro h; exact le_antisymm h1 (e0 ▸ h i0 j0 px0 hp0)
  · intro i j i' j' px px' v v' hp hp' h h'
    rw [hv' hp h, hv' hp' h']
    field_simp
    ring

/-- **C107**: it does not matter in which range the channels are stored. -/
theorem C107_range {picture : List (List (List ℝ))} {t : List (List ℝ)} (h : airforce picture = some t)
    (hc : NonnegPicture picture) {k : ℝ} (hk : 0 < k) :
    airforce (picture.map fun row => row.map fun px => px.map fun c => k * c) = some t := by
  have hsum : ∀ px : List ℝ, (px.map fun c => k * c).sum = k * px.sum := fun px => by
    simpa using List.sum_map_mul_left px (fun c => c) k
  have hp : ∀ i j, pixelAt (picture.map fun row => row.map fun px => px.map fun c => k * c) i j
      = (pixelAt picture i j).map fun px => px.map fun c => k * c := by
    intro i j
    simp only [pixelAt, ← List.map_reverse, List.getElem?_map]
    cases picture.reverse[i]? <;> simp
  have hc' : NonnegPicture (picture.map fun row => row.map fun px => px.map fun c => k * c) := by
    intro row hr px hpx c hcc
    obtain ⟨row', hr', rfl⟩ := List.mem_map.1 hr
    obtain ⟨px', hp', rfl⟩ := List.mem_map.1 hpx
    obtain ⟨c', hc'', rfl⟩ := List.mem_map.1 hcc
    exact mul_nonneg hk.le (hc _ hr' _ hp' _ hc'')
  obtain ⟨i, j, px, hpx, hne⟩ := (C107_exists hc).1 ⟨t, h⟩
  obtain ⟨t', h'⟩ := (C107_exists hc').2 ⟨i, j, px.map fun c => k * c, by rw [hp, hpx]; rfl, by
    rw [hsum]; exact mul_ne_zero hk.ne' hne⟩
  rw [h']
  obtain ⟨m, hm, hle, ⟨i0, j0, px0, hp0, e0⟩, rfl⟩ := airforce_brightest h hc
  obtain ⟨m', hm', hle', ⟨i1, j1, px1, hp1, e1⟩, rfl⟩ := airforce_brightest h' hc'
  have hmm : m' = k * m := by
    apply le_antisymm
    · rw [hp] at hp1
      obtain ⟨q, hq, rfl⟩ := Option.map_eq_some_iff.1 hp1
      rw [← e1, hsum]
      exact mul_le_mul_of_nonneg_left (hle _ _ _ hq) hk.le
    · rw [← e0, ← hsum]
      exact hle' i0 j0 _ (by rw [hp, hp0]; rfl)
  rw [Option.some.injEq, ← List.map_reverse, List.map_map]
  congr 1
  funext row
  simp only [Function.comp_apply, List.map_map]
  congr 1
  funext px
  simp only [Function.comp_apply, hsum, hmm]
  rw [mul_div_mul_left _ _ hk.ne']

/-- A black pixel below a white one. -/
example : airforce [[[1, 1, 1]], [[0, 0, 0]]] = some [[1], [0]] ∧ NonnegPicture [[[1, 1, 1]], [[0, 0, 0]]] ∧
    pixelAt [[[1, 1, 1]], [[0, 0, 0]]] 0 0 = some [0, 0, 0] := by
  refine ⟨?_, ?_, rfl⟩
  · rw [airforce_eq (m := 3)]
    · simp; norm_num
    · simp [List.max?_cons]; norm_num
    · norm_num
  · intro row hr px hp c hc
    simp at hr
    rcases hr with rfl | rfl <;> simp at hp <;> subst hp <;> simp at hc <;> subst hc <;> norm_num

end Optika
