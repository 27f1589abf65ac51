import Verif.Model.Residual
import Verif.Props.Fit

/-! # C116 -/

namespace Optika

/-- The distance of two positions. -/
noncomputable def distance2 (x y x' y' : ℝ) : ℝ := √((x - x') ^ 2 + (y - y') ^ 2)

theorem residual_some {m : PolynomialDistortion} {p : CalibrationPoint} {r : ℝ}
    (h : m.residual p = some r) : p.where_ = true ∧ ∃ s q, p.sensor = some s ∧
      m.distort p.scene = some q ∧ r = distance2 s.x s.y q.x q.y := by
  unfold PolynomialDistortion.residual at h
  by_cases hw : p.where_ = true
  · rw [if_pos hw] at h
    simp only [Option.bind_eq_bind, Option.bind_eq_some_iff, Option.pure_def,
      Option.some.injEq] at h
    obtain ⟨s, hs, q, hq, e⟩ := h
    exact ⟨hw, s, q, hs, hq, e.symm⟩
  · rw [if_neg hw] at h
    cases h

theorem selected_mem {m : PolynomialDistortion} {l : List (Spectral × V2)} (hl : m.Selected l)
    {p : CalibrationPoint} (hp : p ∈ m.points) (hw : p.where_ = true) :
    ∃ s, p.sensor = some s ∧ (p.scene, s) ∈ l := by
  have : (p.scene, p.sensor) ∈ (m.points.filter (·.where_)).map (fun p => (p.scene, p.sensor)) :=
    List.mem_map.2 ⟨p, List.mem_filter.2 ⟨hp, hw⟩, rfl⟩
  unfold PolynomialDistortion.Selected at hl
  rw [hl] at this
  obtain ⟨q, hq, e⟩ := List.mem_map.1 this
  refine ⟨q.2, (congrArg Prod.snd e).symm, ?_⟩
  have h1 : q.1 = p.scene := congrArg Prod.fst e
  rw [← h1]
  exact hq

/-- **C116**: the picture of the residuals of a distortion model shows the points that the fit uses and
no others, and at each of them the distance between its position on the sensor and the position that the
model predicts. -/
theorem C116_shown (m : PolynomialDistortion) {l : List (Spectral × V2)} (hl : m.Selected l)
    (hu : Unisolvent m.degree (l.map Prod.fst)) {p : CalibrationPoint} (hp : p ∈ m.points) :
    ((m.residual p).isSome ↔ p.where_ = true) ∧ ∀ r, m.residual p = some r →
      ∃ s q, p.sensor = some s ∧ m.distort p.scene = some q ∧ r = distance2 s.x s.y q.x q.y := by
  refine ⟨⟨fun h => ?_, fun hw => ?_⟩, fun r hr => (residual_some hr).2⟩
  · obtain ⟨r, hr⟩ := Option.isSome_iff_exists.1 h
    exact (residual_some hr).1
  · obtain ⟨s, hs, -⟩ := selected_mem hl hp hw
    obtain ⟨q, hq⟩ := Option.isSome_iff_exists.1 ((C66_defined m hl p.scene).2 hu)
    unfold PolynomialDistortion.residual
    rw [if_pos hw, hs, hq]
    rfl

/-- **C116**: if nothing else is asked for, the colours range from zero to the greatest residual of the
points that the fit uses. -/
theorem C116_range (m : PolynomialDistortion) {a b : ℝ} (h : m.residualRange none none = some (a, b)) :
    a = 0 ∧ (∃ p ∈ m.points, p.where_ = true ∧ m.residual p = some b) ∧
      ∀ p ∈ m.points, ∀ r, m.residual p = some r → a ≤ r ∧ r ≤ b := by
  unfold PolynomialDistortion.residualRange colorRange at h
  simp only [Option.getD_none, Option.bind_eq_bind,
    Option.bind_eq_some_iff, Option.pure_def, Option.some.injEq, Prod.mk.injEq] at h
  obtain ⟨v, hv, e0, rfl⟩ := h
  have hv : m.greatestResidual = some v := hv
  unfold PolynomialDistortion.greatestResidual at hv
  rw [List.max?_eq_some_iff] at hv
  obtain ⟨hm, hle⟩ := hv
  obtain ⟨p, hp, hr⟩ := List.mem_filterMap.1 hm
  refine ⟨e0.symm, ⟨p, hp, (residual_some hr).1, hr⟩, fun p hp r hr => ⟨?_, ?_⟩⟩
  · obtain ⟨-, s, q, -, -, e⟩ := residual_some hr
    rw [e, ← e0]
    exact Real.sqrt_nonneg _
  · exact hle r (List.mem_filterMap.2 ⟨p, hp, hr⟩)

/-- **C116**: it has a range if the fit is defined and uses a point. -/
theorem C116_range_defined (m : PolynomialDistortion) {l : List (Spectral × V2)} (hl : m.Selected l)
    (hu : Unisolvent m.degree (l.map Prod.fst)) {p : CalibrationPoint} (hp : p ∈ m.points)
    (hw : p.where_ = true) : (m.residualRange none none).isSome := by
  obtain ⟨r, hr⟩ := Option.isSome_iff_exists.1 ((C116_shown m hl hu hp).1.2 hw)
  have hne : m.points.filterMap m.residual ≠ [] :=
    List.ne_nil_of_mem (List.mem_filterMap.2 ⟨p, hp, hr⟩)
  unfold PolynomialDistortion.residualRange colorRange PolynomialDistortion.greatestResidual
  obtain ⟨v, hv⟩ := Option.isSome_iff_exists.1 (List.isSome_max?_iff.2 hne)
  rw [hv]
  rfl

/-- **C116**: the residuals of a mapping that is polynomial are zero. -/
theorem C116_exact (m : PolynomialDistortion) {l : List (Spectral × V2)} (hl : m.Selected l)
    (qx qy : MvPolynomial (Fin 3) ℝ) (hx : qx.totalDegree ≤ m.degree)
    (hy : qy.totalDegree ≤ m.degree)
    (h : ∀ q ∈ l, q.2 = ⟨MvPolynomial.eval q.1.coord qx, MvPolynomial.eval q.1.coord qy⟩)
    (hu : Unisolvent m.degree (l.map Prod.fst)) {p : CalibrationPoint} (hp : p ∈ m.points)
    (hw : p.where_ = true) : m.residual p = some 0 := by
  obtain ⟨s, hs, hmem⟩ := selected_mem hl hp hw
  unfold PolynomialDistortion.residual
  rw [if_pos hw, hs, C66_exact m hl qx qy hx hy h hu p.scene]
  have := h _ hmem
  simp only at this
  subst this
  simp

/-- **C116**: no polynomial mapping of at most the degree of the model has residuals with a smaller sum of
squares. -/
theorem C116_least_squares (m : PolynomialDistortion) {l : List (Spectral × V2)}
    (hl : m.Selected l) (hu : Unisolvent m.degree (l.map Prod.fst))
    (qx qy : MvPolynomial (Fin 3) ℝ) (hx : qx.totalDegree ≤ m.degree)
    (hy : qy.totalDegree ≤ m.degree) :
    ((m.points.filterMap m.residual).map (· ^ 2)).sum ≤
      (l.map fun q => distance2 (MvPolynomial.eval q.1.coord qx) (MvPolynomial.eval q.1.coord qy)
        q.2.x q.2.y ^ 2).sum := by
  have hg : ∃ g : Spectral → Spectral, ∀ c, m.distort c = some (g c) := by
    refine ⟨fun c => (m.distort c).getD ⟨0, 0, 0⟩, fun c => ?_⟩
    obtain ⟨q, hq⟩ := Option.isSome_iff_exists.1 ((C66_defined m hl c).2 hu)
    simp only [hq, Option.getD_some]
  obtain ⟨g, hg⟩ := hg
  have hsq : ∀ x y x' y', distance2 x y x' y' ^ 2 = (x - x') ^ 2 + (y - y') ^ 2 := fun x y x' y' =>
    Real.sq_sqrt (by positivity)
  have key : ∀ (ps : List CalibrationPoint) (l : List (Spectral × V2)),
      (ps.filter (·.where_)).map (fun p => (p.scene, p.sensor)) = l.map (fun q => (q.1, some q.2)) →
      ((ps.filterMap m.residual).map (· ^ 2)).sum =
        (l.map fun q => ((g q.1).x - q.2.x) ^ 2 + ((g q.1).y - q.2.y) ^ 2).sum := by
    intro ps
    induction ps with
    | nil =>
      intro l hl
      cases l with
      | nil => rfl
      | cons a l => simp at hl
    | cons p ps ih =>
      intro l hl
      by_cases hw : p.where_ = true
      · rw [List.filter_cons_of_pos hw] at hl
        cases l with
        | nil => simp at hl
        | cons a l =>
          simp only [List.map_cons, List.cons.injEq, Prod.mk.injEq] at hl
          obtain ⟨⟨h1, h2⟩, h3⟩ := hl
          have hr : m.residual p = some (distance2 a.2.x a.2.y (g a.1).x (g a.1).y) := by
            unfold PolynomialDistortion.residual
            rw [if_pos hw, h2, h1, hg]
            rfl
          rw [List.filterMap_cons_some hr, List.map_cons, List.sum_cons, ih l h3, List.map_cons,
            List.sum_cons, hsq]
          ring
      · rw [List.filter_cons_of_neg hw] at hl
        have hr : m.residual p = none := by
          unfold PolynomialDistortion.residual
          rw [if_neg hw]
        rw [List.filterMap_cons_none hr]
        exact ih l hl
  rw [key m.points l hl]
  simp only [hsq]
  exact C66_least_squares m hl hg qx qy hx hy

/-- **C116**: `inverse` corrects for the vignetting. -/
theorem C116_correction (m : PolynomialVignetting) {c : Spectral} {v : ℝ} (h : m.call c = some v)
    (hv : v ≠ 0) (brightness : ℝ) :
    ∃ w, m.inverse c = some w ∧ w * (v * brightness) = brightness := by
  refine ⟨1 / v, ?_, by field_simp⟩
  unfold PolynomialVignetting.inverse div?
  rw [h]
  simp [hv]

/-- **C116**: a point from which no light arrives has no correction. -/
theorem C116_dark (m : PolynomialVignetting) {c : Spectral} (h : m.call c = some 0) :
    m.inverse c = none := by
  unfold PolynomialVignetting.inverse div?
  rw [h]
  simp

/-- **C116**: if the fit uses all points, the picture of the residuals of a vignetting model shows at each
of them the difference between its illumination and the prediction, and the colours range from zero to
the greatest of them. -/
theorem C116_vignetting_partial (m : PolynomialVignetting) (hall : ∀ p ∈ m.points, p.2.2 = true)
    {g : Spectral → ℝ} (hg : ∀ c, m.call c = some (g c)) (hne : m.points ≠ []) :
    (∀ p ∈ m.points, p.2.2 = true ∧ m.residual p = some |p.2.1 - g p.1|) ∧
      ∃ p ∈ m.points, m.residualRange none none = some (0, |p.2.1 - g p.1|) ∧
        ∀ q ∈ m.points, |q.2.1 - g q.1| ≤ |p.2.1 - g p.1| := by
  have hr : ∀ p, m.residual p = some |p.2.1 - g p.1| := fun p => by
    unfold PolynomialVignetting.residual
    rw [hg]
    rfl
  refine ⟨fun p hp => ⟨hall p hp, hr p⟩, ?_⟩
  have hl : allFinite (m.points.map m.residual) =
      some (m.points.map fun p => |p.2.1 - g p.1|) :=
    allFinite_map_some m.points m.residual _ fun p _ => hr p
  have hne' : m.points.map (fun p => |p.2.1 - g p.1|) ≠ [] := by simpa using hne
  obtain ⟨v, hv⟩ := Option.isSome_iff_exists.1 (List.isSome_max?_iff.2 hne')
  obtain ⟨hm, hle⟩ := List.max?_eq_some_iff.1 hv
  obtain ⟨p, hp, rfl⟩ := List.mem_map.1 hm
  refine ⟨p, hp, ?_, fun q hq => hle _ (List.mem_map.2 ⟨q, hq, rfl⟩)⟩
  unfold PolynomialVignetting.residualRange colorRange PolynomialVignetting.greatestResidual
  rw [hl]
  simp [hv]

/-! ### Cases -/

/-- The residuals of the grid of `corner_round_trip`, one point of which is excluded. -/
example : (∀ p ∈ (cornerDistortion none).points, p.where_ = true →
    (cornerDistortion none).residual p = some 0) ∧
    (cornerDistortion none).residual ⟨⟨7, 8, 9⟩, none, false⟩ = none ∧
    (cornerDistortion none).residualRange none none = some (0, 0) := by
  have h0 : ∀ p ∈ (cornerDistortion none).points, p.where_ = true →
      (cornerDistortion none).residual p = some 0 := by
    obtain ⟨qx, hqx, ex⟩ := polyFun_exists (polyFun_affine 5 2 0 0 (le_refl 1))
    obtain ⟨qy, hqy, ey⟩ := polyFun_exists (polyFun_affine 0 0 3 0 (le_refl 1))
    intro p hp hw
    refine C116_exact _ (corner_selected none) qx qy hqx hqy ?_ unisolvent_corners hp hw
    intro q hq
    rw [← ex, ← ey]
    simp only [List.mem_cons, List.not_mem_nil, or_false] at hq
    rcases hq with rfl | rfl | rfl | rfl <;> norm_num
  refine ⟨h0, rfl, ?_⟩
  obtain ⟨⟨a, b⟩, hab⟩ := Option.isSome_iff_exists.1 (C116_range_defined (cornerDistortion none)
    (corner_selected none) unisolvent_corners (p := ⟨⟨0, 0, 0⟩, some ⟨0, 0⟩, true⟩)
    (by simp [cornerDistortion]) rfl)
  obtain ⟨ha, ⟨p, hp, hw, hb⟩, -⟩ := C116_range _ hab
  rw [h0 p hp hw] at hb
  rw [hab, ha, ← Option.some.inj hb]

/-- Four points of equal illumination and a fifth, dark one that the fit does not use. -/
noncomputable def darkCorner : PolynomialVignetting :=
  ⟨[(⟨0, 0, 0⟩, 1, true), (⟨1, 0, 0⟩, 1, true), (⟨0, 1, 0⟩, 1, true), (⟨0, 0, 1⟩, 1, true),
    (⟨3, 4, 5⟩, 0, false)], 1⟩

theorem darkCorner_call (c : Spectral) : darkCorner.call c = some 1 := by
  have := C66_vignetting darkCorner (MvPolynomial.C 1) (by simp) (by
    intro p hp hw
    simp only [darkCorner, List.mem_cons, List.not_mem_nil, or_false] at hp
    rcases hp with rfl | rfl | rfl | rfl | rfl <;> simp at hw ⊢) unisolvent_corners c
  simpa using this

/-- **C116**: the picture for a vignetting model shows points that the fit does not use, unlike that for a
distortion model, and they set the range of the colours: here the model is exact at all points that it
uses, and the picture shows an error of one. -/
theorem C116_vignetting_excluded_counterexample :
    (∀ p ∈ darkCorner.points, p.2.2 = true → darkCorner.residual p = some 0) ∧
      darkCorner.residual (⟨3, 4, 5⟩, 0, false) = some 1 ∧
      darkCorner.residualRange none none = some (0, 1) := by
  have h : ∀ p, darkCorner.residual p = some |p.2.1 - 1| := fun p => by
    unfold PolynomialVignetting.residual
    rw [darkCorner_call]
    rfl
  refine ⟨fun p hp hw => ?_, by rw [h]; norm_num, ?_⟩
  · rw [h]
    simp only [darkCorner, List.mem_cons, List.not_mem_nil, or_false] at hp
    rcases hp with rfl | rfl | rfl | rfl | rfl <;> simp at hw ⊢
  · have hl : allFinite (darkCorner.points.map darkCorner.residual) = some [0, 0, 0, 0, 1] := by
      simp only [darkCorner, List.map_cons, List.map_nil] at h ⊢
      simp only [h]
      norm_num [allFinite]
    unfold PolynomialVignetting.residualRange colorRange PolynomialVignetting.greatestResidual
    rw [hl]
    have : List.max? ([0, 0, 0, 0, 1] : List ℝ) = some 1 := by
      rw [List.max?_eq_some_iff]
      simp
    simp [this]

end Optika
