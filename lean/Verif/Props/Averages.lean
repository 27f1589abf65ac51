import Verif.Props.System
import Mathlib.Algebra.Order.BigOperators.Group.Finset
import Mathlib.Algebra.BigOperators.Field

/-!
# C26: effective area, relative illumination and mean positions
-/

namespace Optika
open V3

section
variable {F P Q : Type} [Fintype F] [Fintype P] [Fintype Q]

/-! ### Effective area -/

theorem moved_passive {g : Rigid} {s : Surface} (h : Passive s) : Passive (s.moved g) :=
  ⟨h.material, h.rulings, h.attenuation⟩

/-- The light that arrives from one cell of the pupil. -/
theorem C26_cell (s : System) (hobj : Passive s.object.surface)
    (hs : ∀ x ∈ s.surfaces, Passive x.surface) (hsensor : Passive s.sensor.surface)
    (g : Grid) (volume : ℝ) (cache : Option Ray) (out : Ray)
    (h : s.rayfunction (cellCall g volume) cache = some out) :
    0 ≤ out.intensity ∧ out.intensity ≤ |volume| := by
  obtain ⟨r, gl, hr, hg, rfl⟩ := (C24_rayfunction s _ cache out).1 h
  have hpas : ∀ x ∈ s.placed, Passive x := by
    intro x hx
    simp only [System.placed, List.mem_map, List.mem_append, List.mem_cons,
      List.not_mem_nil, or_false] at hx
    obtain ⟨y, hy, rfl⟩ := hx
    apply moved_passive
    rcases hy with (rfl | ⟨z, hz, rfl⟩) | rfl
    · exact hobj
    · exact hs z hz
    · exact hsensor
  have hin : r.attenuation = 0 ∧ r.intensity = |volume| := by
    unfold System.callInput at hr
    rw [if_neg (by simp [cellCall])] at hr
    simp only [Option.map_eq_some_iff] at hr
    obtain ⟨r0, hr0, rfl⟩ := hr
    obtain ⟨-, -, -, -, -, -, ha, -, -⟩ := C25_input s _ _ _ r0 hr0
    exact ⟨ha, rfl⟩
  have := C15_no_energy_created hg hpas (by rw [hin.1]) (by rw [hin.2]; exact abs_nonneg _)
  rw [hin.2] at this
  exact ⟨this.1, this.2.1⟩

/-- **C26**: the effective area of a system whose surfaces have efficiencies between zero and one
is not negative and at most the area of the pupil (averaged over the field). -/
theorem C26_area_bounds (s : System) (hobj : Passive s.object.surface)
    (hs : ∀ x ∈ s.surfaces, Passive x.surface) (hsensor : Passive s.sensor.surface)
    (grid : F → P → Grid) (volume : F → P → ℝ) (cache : Option Ray) (rays : F → P → Ray)
    (h : ∀ f p, s.rayfunction (cellCall (grid f p) (volume f p)) cache = some (rays f p)) :
    0 ≤ areaEffective rays ∧
      areaEffective rays ≤ (∑ f, ∑ p, |volume f p|) / (Fintype.card F : ℝ) := by
  have hb := fun f p => C26_cell s hobj hs hsensor (grid f p) (volume f p) cache _ (h f p)
  unfold areaEffective areaField
  constructor
  · apply div_nonneg _ (Nat.cast_nonneg _)
    exact Finset.sum_nonneg fun f _ => Finset.sum_nonneg fun p _ => (hb f p).1
  · apply div_le_div_of_nonneg_right _ (Nat.cast_nonneg _)
    apply Finset.sum_le_sum
    intro f _
    calc _ ≤ ∑ p ∈ Finset.univ.filter (fun p => (rays f p).unvignetted = true), |volume f p| :=
          Finset.sum_le_sum fun p _ => (hb f p).2
      _ ≤ _ := Finset.sum_le_sum_of_subset_of_nonneg (Finset.filter_subset _ _)
          fun p _ _ => abs_nonneg _

/-- **C26**: the effective area of a pupil made of two parts is the sum of those of the parts. -/
theorem C26_area_additive (rays : F → P ⊕ Q → Ray) :
    areaEffective rays = areaEffective (fun f p => rays f (.inl p)) +
      areaEffective (fun f q => rays f (.inr q)) := by
  unfold areaEffective areaField
  rw [← add_div, ← Finset.sum_add_distrib]
  congr 1
  apply Finset.sum_congr rfl
  intro f _
  rw [Finset.sum_filter, Finset.sum_filter, Finset.sum_filter, Fintype.sum_sum_type]

/-- **C26**: vignetted rays do not count, whatever their intensity; the unvignetted rays count
with their intensity. -/
theorem C26_area_vignetted (rays rays' : F → P → Ray)
    (hflag : ∀ f p, (rays f p).unvignetted = (rays' f p).unvignetted)
    (hint : ∀ f p, (rays f p).unvignetted = true → (rays f p).intensity = (rays' f p).intensity) :
    areaEffective rays = areaEffective rays' := by
  unfold areaEffective areaField
  congr 1
  apply Finset.sum_congr rfl
  intro f _
  apply Finset.sum_congr
  · ext p; simp [hflag]
  · intro p hp
    exact hint f p (by rw [hflag]; simpa using hp)

/-- **C26**: if the intensities of the rays are the areas of their cells (no losses), the
effective area at a field point is the area of the unvignetted cells. -/
theorem C26_area_lossless (rays : P → Ray) (volume : P → ℝ)
    (h : ∀ p, (rays p).intensity = |volume p|) :
    areaField rays = ∑ p, if (rays p).unvignetted = true then |volume p| else 0 := by
  unfold areaField
  rw [Finset.sum_filter]
  exact Finset.sum_congr rfl fun p _ => by rw [h]

/-! ### Averages -/

/-- **C26**: the sensor coordinate of a field point is the mean over the unvignetted rays, and
over all the rays if there are none.  It is defined as soon as there is a ray at all. -/
theorem C26_position (x : P → ℝ) (unv : P → Bool) [Nonempty P] :
    ∃ m, meanCoordinate x unv = some m ∧
    ((∃ p, unv p = true) →
      m * ((Finset.univ.filter (fun p => unv p = true)).card : ℝ) =
        ∑ p ∈ Finset.univ.filter (fun p => unv p = true), x p) ∧
    ((∀ p, unv p = false) → m * (Fintype.card P : ℝ) = ∑ p, x p) := by
  have hw : (Finset.univ.filter (fun p => (unv p || !anyUnvignetted unv) = true)) =
      if ∃ p, unv p = true then Finset.univ.filter (fun p => unv p = true) else Finset.univ := by
    split
    · rename_i h; simp [anyUnvignetted, h]
    · rename_i h; ext p; simp [anyUnvignetted, h]
  unfold meanCoordinate meanWhere
  have hfil : ∀ inst : DecidablePred (fun p => (unv p || !anyUnvignetted unv) = true),
      @Finset.filter P (fun p => (unv p || !anyUnvignetted unv) = true) inst Finset.univ =
      if ∃ p, unv p = true then Finset.univ.filter (fun p => unv p = true) else Finset.univ := by
    intro inst; rw [← hw]; ext p; simp
  rw [hfil]
  by_cases h : ∃ p, unv p = true
  · rw [if_pos h]
    have hc : ((Finset.univ.filter (fun p => unv p = true)).card : ℝ) ≠ 0 := by
      rw [Nat.cast_ne_zero, ← Nat.pos_iff_ne_zero, Finset.card_pos]
      obtain ⟨p, hp⟩ := h
      exact ⟨p, by simp [hp]⟩
    refine ⟨_, div?_of_ne hc, fun _ => by field_simp, fun hall => ?_⟩
    obtain ⟨p, hp⟩ := h
    rw [hall p] at hp; exact absurd hp (by simp)
  · rw [if_neg h]
    have hc : ((Finset.univ : Finset P).card : ℝ) ≠ 0 := by
      rw [Nat.cast_ne_zero]; exact Finset.card_ne_zero.2 Finset.univ_nonempty
    refine ⟨_, div?_of_ne hc, fun h' => absurd h' h, fun _ => ?_⟩
    rw [← Finset.card_univ]; field_simp

/-- **C26**: the sensor coordinate lies within the range of the rays that are averaged. -/
theorem C26_position_range (x : P → ℝ) (unv : P → Bool) (m lo hi : ℝ)
    (h : meanCoordinate x unv = some m)
    (hb : ∀ p, (unv p = true ∨ ∀ q, unv q = false) → lo ≤ x p ∧ x p ≤ hi) : lo ≤ m ∧ m ≤ hi := by
  unfold meanCoordinate meanWhere at h
  obtain ⟨hc, rfl⟩ := div?_eq_some.1 h
  generalize hS : (@Finset.filter P (fun p => (unv p || !anyUnvignetted unv) = true) _
    Finset.univ) = S at hc ⊢
  have hpos : (0 : ℝ) < S.card := lt_of_le_of_ne (Nat.cast_nonneg _) (Ne.symm hc)
  have hmem : ∀ p ∈ S, lo ≤ x p ∧ x p ≤ hi := by
    intro p hp
    rw [← hS] at hp
    simp only [Finset.mem_filter, Finset.mem_univ, true_and, Bool.or_eq_true,
      Bool.not_eq_eq_eq_not, Bool.not_true, anyUnvignetted, decide_eq_false_iff_not] at hp
    apply hb p
    rcases hp with hp | hp
    · exact .inl hp
    · right; intro q; by_contra hq; exact hp ⟨q, by simpa using hq⟩
  constructor
  · rw [le_div_iff₀ hpos]
    have := Finset.card_nsmul_le_sum S x lo fun p hp => (hmem p hp).1
    rw [nsmul_eq_mul] at this; linarith
  · rw [div_le_iff₀ hpos]
    have := Finset.sum_le_card_nsmul S x hi fun p hp => (hmem p hp).2
    rw [nsmul_eq_mul] at this; linarith

example : meanCoordinate ![(1 : ℝ), 3, 100] ![true, true, false] = some 2 := by
  obtain ⟨m, hm, h1, -⟩ := C26_position ![(1 : ℝ), 3, 100] ![true, true, false]
  have := h1 ⟨0, rfl⟩
  rw [show (Finset.univ.filter (fun p : Fin 3 => ![true, true, false] p = true)) = {0, 1} by
    decide] at this
  simp at this
  rw [hm]; congr 1; linarith

/-- The fraction of rays of a field point that reach the sensor. -/
noncomputable def survivors (unv : F → P → Bool) (f : F) : ℝ :=
  ((Finset.univ.filter (fun p => unv f p = true)).card : ℝ) / (Fintype.card P : ℝ)

theorem sum_toReal (unv : P → Bool) :
    ∑ p, toReal (unv p) = ((Finset.univ.filter (fun p => unv p = true)).card : ℝ) := by
  unfold toReal
  rw [Finset.sum_ite]
  simp

/-- **C26**: the relative illumination is proportional to the fraction of surviving rays, and
its mean over the field points with surviving rays is one (stated without division: the sum is the
number of these points).  It is defined as soon as one ray survives. -/
theorem C26_illumination (unv : F → P → Bool) (hsome : ∃ f p, unv f p = true) :
    ∃ (rel : F → ℝ) (k : ℝ), 0 < k ∧ (∀ f, illumination unv f = some (rel f)) ∧
      (∀ f, rel f = k * survivors unv f) ∧
      ∑ f ∈ Finset.univ.filter (fun f => ∃ p, unv f p = true), rel f =
        ((Finset.univ.filter (fun f => ∃ p, unv f p = true)).card : ℝ) := by
  classical
  obtain ⟨f0, p0, h0⟩ := hsome
  have hP : (0 : ℝ) < Fintype.card P := by
    rw [Nat.cast_pos, Fintype.card_pos_iff]; exact ⟨p0⟩
  set S := Finset.univ.filter (fun f => ∃ p, unv f p = true) with hS
  have hScard : (0 : ℝ) < S.card := by
    rw [Nat.cast_pos, Finset.card_pos]; exact ⟨f0, by simp [hS]; exact ⟨p0, h0⟩⟩
  have hpos : ∀ f ∈ S, 0 < survivors unv f := by
    intro f hf
    simp only [hS, Finset.mem_filter, Finset.mem_univ, true_and] at hf
    obtain ⟨p, hp⟩ := hf
    apply div_pos _ hP
    rw [Nat.cast_pos, Finset.card_pos]; exact ⟨p, by simp [hp]⟩
  have hsum : 0 < ∑ f ∈ S, survivors unv f :=
    Finset.sum_pos hpos ⟨f0, by simp [hS]; exact ⟨p0, h0⟩⟩
  have hmean : meanWhere (fun f => (∑ p, toReal (unv f p)) / (Fintype.card P : ℝ))
      (fun f => anyUnvignetted (unv f)) = some ((∑ f ∈ S, survivors unv f) / S.card) := by
    unfold meanWhere
    have hfil : ∀ inst : DecidablePred (fun f => anyUnvignetted (unv f) = true),
        @Finset.filter F (fun f => anyUnvignetted (unv f) = true) inst Finset.univ = S := by
      intro inst; ext f; simp [hS, anyUnvignetted]
    rw [hfil, div?_of_ne hScard.ne']
    simp only [sum_toReal]; rfl
  set m := (∑ f ∈ S, survivors unv f) / S.card with hm
  have hmpos : 0 < m := div_pos hsum hScard
  refine ⟨fun f => survivors unv f / m, 1 / m, by positivity, ?_, ?_, ?_⟩
  · intro f
    unfold illumination
    simp only [hmean, Option.bind_eq_bind, Option.bind_some]
    rw [div?_of_ne hmpos.ne', sum_toReal]; rfl
  · intro f; ring
  · have hrw : (Finset.univ.filter (fun f => ∃ p, unv f p = true)) = S := rfl
    rw [← Finset.sum_div]
    rw [hm]; field_simp

/-- **C26**: a field point all of whose rays are vignetted has relative illumination zero, and
one with surviving rays a positive one. -/
theorem C26_illumination_zero (unv : F → P → Bool) (f : F) (rel : ℝ)
    (h : illumination unv f = some rel) : (rel = 0 ↔ ∀ p, unv f p = false) ∧ 0 ≤ rel := by
  by_cases hsome : ∃ f p, unv f p = true
  · obtain ⟨r, k, hk, h1, h2, -⟩ := C26_illumination unv hsome
    have hr : rel = k * survivors unv f := by
      rw [← h2, ← Option.some.injEq, ← h1, h]
    obtain ⟨f0, p0, h0⟩ := hsome
    have hP : (0 : ℝ) < Fintype.card P := by
      rw [Nat.cast_pos, Fintype.card_pos_iff]; exact ⟨p0⟩
    constructor
    · rw [hr, mul_eq_zero, or_iff_right hk.ne', survivors, div_eq_zero_iff, or_iff_left hP.ne',
        Nat.cast_eq_zero, Finset.card_eq_zero, Finset.filter_eq_empty_iff]
      simp
    · rw [hr]; unfold survivors; positivity
  · exfalso
    push Not at hsome
    unfold illumination at h
    simp only [Option.bind_eq_bind, Option.bind_eq_some_iff] at h
    obtain ⟨m, hm, -⟩ := h
    unfold meanWhere at hm
    obtain ⟨hc, -⟩ := div?_eq_some.1 hm
    apply hc
    rw [Nat.cast_eq_zero, Finset.card_eq_zero, Finset.filter_eq_empty_iff]
    intro f _
    simp [anyUnvignetted, hsome]

example : ∃ f p, (![![true, false], ![true, true]] : Fin 2 → Fin 2 → Bool) f p = true :=
  ⟨0, 0, rfl⟩

end

/-- The hypotheses of `C26_area_bounds` are met by two planes. -/
example (p : Fin 2) :
    (planes none).rayfunction (cellCall ⟨1, ⟨0, 0⟩, ⟨p.val, 0⟩⟩ (-3)) none
      = some ⟨1, ⟨p.val, 0, 0⟩, ⟨0, 0, 1⟩, 3, 0, 1, true⟩ := by
  rw [C24_rayfunction]
  refine ⟨⟨1, ⟨p.val, 0, 0⟩, ⟨0, 0, 1⟩, 3, 0, 1, true⟩, ⟨1, ⟨p.val, 0, 0⟩, ⟨0, 0, 1⟩, 3, 0, 1, true⟩,
    ?_, ?_, ?_⟩
  · simp [System.callInput, cellCall, System.calcInput, planes, denormalizeGrid, directionOf,
      setIntensity]
  · have := C16_rigid Rigid.id [⟨flatSag, vacuum, none, none, none⟩,
      ⟨flatSag, vacuum, none, none, none⟩] ⟨1, ⟨p.val, 0, 0⟩, ⟨0, 0, 1⟩, 3, 0, 1, true⟩
    rw [Ray.move_id] at this
    simp only [planes, System.placed, List.map_nil, List.nil_append, List.cons_append,
      Option.getD_none]
    rw [this]
    simp only [propagateSurfaces_cons, propagateSurfaces_nil, plane_propagate, Option.bind_some,
      Option.map_some, Ray.move_id]
  · simp only [planes, Option.getD_none, Surface.frame]
    rw [Ray.unmove_comp, Ray.unmove_id, Ray.unmove_id]

end Optika
