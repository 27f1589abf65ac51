import Verif.Lemmas.Fit

/-!
# C66: fitted distortion and vignetting

A polynomial model of degree `d`, fitted to calibration points which are samples of polynomials of
degree at most `d`, is these polynomials, everywhere; the fit exists precisely if the selected points
determine a polynomial; otherwise it is the best approximation in the sense of least squares; points
excluded by the mask do not matter (except for the mapping back, where they have to be finite); the
wavelength is carried through.

Polynomials in wavelength and position are `MvPolynomial (Fin 3) ℝ`, of total degree at most `d`,
evaluated at `Spectral.coord`; `Unisolvent d points`: only the zero polynomial of degree at most `d`
vanishes at all the points.
-/

namespace Optika

theorem allFinite_map_some {α β : Type} (l : List α) (g : α → Option β) (h : α → β)
    (hg : ∀ a ∈ l, g a = some (h a)) : allFinite (l.map g) = some (l.map h) := by
  induction l with
  | nil => rfl
  | cons a l ih =>
    rw [List.map_cons, hg a (List.mem_cons_self ..), allFinite,
      ih fun b hb => hg b (List.mem_cons_of_mem _ hb)]
    rfl

theorem allFinite_none {α : Type} {l : List (Option α)} (h : none ∈ l) : allFinite l = none := by
  induction l with
  | nil => cases h
  | cons a l ih =>
    cases a with
    | none => rfl
    | some a =>
      rw [allFinite, ih (by simpa using h)]
      rfl

/-- A fit to samples of a polynomial is the polynomial. -/
theorem polyFit_exact {d : ℕ} {center : Spectral} {points : List (Spectral × ℝ)}
    (q : MvPolynomial (Fin 3) ℝ) (hq : q.totalDegree ≤ d)
    (hp : ∀ p ∈ points, p.2 = MvPolynomial.eval p.1.coord q)
    (hu : Unisolvent d (points.map Prod.fst)) :
    polyFit d center points = some fun p => MvPolynomial.eval p.coord q := by
  rw [polyFit_iff]
  refine ⟨polyFun_eval q hq, hu, fun g _ => ?_⟩
  apply List.sum_eq_zero
  intro x hx
  obtain ⟨p, hpp, rfl⟩ := List.mem_map.1 hx
  rw [hp p hpp, sub_self, zero_mul]

/-- The centre is immaterial. -/
theorem polyFit_center (d : ℕ) (k k' : Spectral) (points : List (Spectral × ℝ)) :
    polyFit d k points = polyFit d k' points := by
  apply Option.ext
  intro f
  rw [polyFit_iff, polyFit_iff]

theorem polyFit_isSome {d : ℕ} {k : Spectral} {points : List (Spectral × ℝ)} :
    (polyFit d k points).isSome ↔ Unisolvent d (points.map Prod.fst) := by
  rw [← unisolvent_det (center := k)]
  unfold polyFit
  dsimp only
  split_ifs with h
  · simp [h]
  · simp [h]

/-- The points selected by the mask, which are finite. -/
def PolynomialDistortion.Selected (m : PolynomialDistortion) (l : List (Spectral × V2)) : Prop :=
  (m.points.filter (·.where_)).map (fun p => (p.scene, p.sensor))
    = l.map fun q => (q.1, some q.2)

theorem selected_eq {m : PolynomialDistortion} {l : List (Spectral × V2)} (h : m.Selected l) :
    m.selected = some l := by
  unfold PolynomialDistortion.Selected at h
  unfold PolynomialDistortion.selected
  have : (m.points.filter (·.where_)).map (fun p => p.sensor.map fun s => (p.scene, s))
      = ((m.points.filter (·.where_)).map (fun p => (p.scene, p.sensor))).map
        fun q => q.2.map fun s => (q.1, s) := by
    rw [List.map_map]
    rfl
  rw [this, h, List.map_map]
  have := allFinite_map_some l (fun q => some q) id (fun _ _ => rfl)
  rw [List.map_id] at this
  exact this

/-- **C66.** If the position on the sensor is a polynomial of degree at most `degree` in wavelength
and position in the scene at the selected points, and these points determine such a polynomial, then
`distort` is this polynomial, for all wavelengths and positions, and leaves the wavelength alone. -/
theorem C66_exact (m : PolynomialDistortion) {l : List (Spectral × V2)} (hl : m.Selected l)
    (qx qy : MvPolynomial (Fin 3) ℝ) (hx : qx.totalDegree ≤ m.degree)
    (hy : qy.totalDegree ≤ m.degree)
    (h : ∀ q ∈ l, q.2 = ⟨MvPolynomial.eval q.1.coord qx, MvPolynomial.eval q.1.coord qy⟩)
    (hu : Unisolvent m.degree (l.map Prod.fst)) (c : Spectral) :
    m.distort c = some ⟨c.wavelength, MvPolynomial.eval c.coord qx,
      MvPolynomial.eval c.coord qy⟩ := by
  unfold PolynomialDistortion.distort PolynomialDistortion.fit
  rw [selected_eq hl]
  have e1 := polyFit_exact (d := m.degree) (center := spectralMean (m.points.map (·.scene)))
    (points := l.map fun q => (q.1, q.2.x)) qx hx (by
      intro p hp
      obtain ⟨q, hq, rfl⟩ := List.mem_map.1 hp
      rw [h q hq]) (by rw [List.map_map]; exact hu)
  have e2 := polyFit_exact (d := m.degree) (center := spectralMean (m.points.map (·.scene)))
    (points := l.map fun q => (q.1, q.2.y)) qy hy (by
      intro p hp
      obtain ⟨q, hq, rfl⟩ := List.mem_map.1 hp
      rw [h q hq]) (by rw [List.map_map]; exact hu)
  simp only [Option.bind_eq_bind, Option.bind_some, e1, e2, Option.pure_def]

/-- **C66.** The fit is defined precisely if the selected points determine a polynomial. -/
theorem C66_defined (m : PolynomialDistortion) {l : List (Spectral × V2)} (hl : m.Selected l)
    (c : Spectral) : (m.distort c).isSome ↔ Unisolvent m.degree (l.map Prod.fst) := by
  have e1 := polyFit_isSome (d := m.degree) (k := spectralMean (m.points.map (·.scene)))
    (points := l.map fun q => (q.1, q.2.x))
  have e2 := polyFit_isSome (d := m.degree) (k := spectralMean (m.points.map (·.scene)))
    (points := l.map fun q => (q.1, q.2.y))
  rw [List.map_map] at e1 e2
  have f1 : (Prod.fst ∘ fun q : Spectral × V2 => (q.1, q.2.x)) = Prod.fst := rfl
  have f2 : (Prod.fst ∘ fun q : Spectral × V2 => (q.1, q.2.y)) = Prod.fst := rfl
  rw [f1] at e1
  rw [f2] at e2
  unfold PolynomialDistortion.distort PolynomialDistortion.fit
  rw [selected_eq hl]
  simp only [Option.bind_eq_bind, Option.bind_some, Option.pure_def]
  constructor
  · intro h
    apply e1.1
    cases hx : polyFit m.degree (spectralMean (m.points.map (·.scene)))
      (l.map fun q => (q.1, q.2.x)) with
    | none => rw [hx] at h; simp at h
    | some a => rfl
  · intro h
    obtain ⟨a, ha⟩ := Option.isSome_iff_exists.1 (e1.2 h)
    obtain ⟨b, hb⟩ := Option.isSome_iff_exists.1 (e2.2 h)
    rw [ha, hb]
    rfl

/-- Least squares for one component. -/
theorem polyFit_least {d : ℕ} {k : Spectral} {points : List (Spectral × ℝ)} {f : Spectral → ℝ}
    (hf : polyFit d k points = some f) (q : MvPolynomial (Fin 3) ℝ) (hq : q.totalDegree ≤ d) :
    (points.map fun p => (f p.1 - p.2) ^ 2).sum
      ≤ (points.map fun p => (MvPolynomial.eval p.1.coord q - p.2) ^ 2).sum := by
  obtain ⟨h1, -, h3⟩ := polyFit_iff.1 hf
  have hd := Submodule.sub_mem _ (polyFun_eval q hq) h1
  have h4 := h3 _ hd
  rw [← Fin.sum_univ_fun_getElem] at h4 ⊢
  rw [← Fin.sum_univ_fun_getElem]
  have e : ∑ i : Fin points.length, (MvPolynomial.eval points[i].1.coord q - points[i].2) ^ 2
      = ∑ i : Fin points.length, (f points[i].1 - points[i].2) ^ 2
        + ∑ i : Fin points.length, (MvPolynomial.eval points[i].1.coord q - f points[i].1) ^ 2 := by
    have h5 : ∑ i : Fin points.length, 2 * ((f points[i].1 - points[i].2)
        * (MvPolynomial.eval points[i].1.coord q - f points[i].1)) = 0 := by
      rw [← Finset.mul_sum]
      have : ∑ i : Fin points.length, (f points[i].1 - points[i].2)
        * (MvPolynomial.eval points[i].1.coord q - f points[i].1) = 0 := h4
      rw [this, mul_zero]
    rw [← add_zero (∑ i : Fin points.length, (f points[i].1 - points[i].2) ^ 2
      + ∑ i : Fin points.length, _), ← h5, ← Finset.sum_add_distrib, ← Finset.sum_add_distrib]
    apply Finset.sum_congr rfl
    intro i _
    ring
  refine le_trans ?_ (le_of_eq e.symm)
  exact le_add_of_nonneg_right (Finset.sum_nonneg fun i _ => sq_nonneg _)

/-- **C66.** Among all polynomial mappings of degree at most `degree`, `distort` has the least sum of
squared distances from the sensor positions of the selected points. -/
theorem C66_least_squares (m : PolynomialDistortion) {l : List (Spectral × V2)}
    (hl : m.Selected l) {g : Spectral → Spectral} (hg : ∀ c, m.distort c = some (g c))
    (qx qy : MvPolynomial (Fin 3) ℝ) (hx : qx.totalDegree ≤ m.degree)
    (hy : qy.totalDegree ≤ m.degree) :
    (l.map fun q => ((g q.1).x - q.2.x) ^ 2 + ((g q.1).y - q.2.y) ^ 2).sum
      ≤ (l.map fun q => (MvPolynomial.eval q.1.coord qx - q.2.x) ^ 2
        + (MvPolynomial.eval q.1.coord qy - q.2.y) ^ 2).sum := by
  have hg0 := hg ⟨0, 0, 0⟩
  unfold PolynomialDistortion.distort at hg hg0
  simp only [Option.bind_eq_bind, Option.bind_eq_some_iff, Option.pure_def,
    Option.some.injEq] at hg hg0
  obtain ⟨f, hf, -⟩ := hg0
  have hgf : ∀ c, g c = ⟨c.wavelength, f.1 c, f.2 c⟩ := by
    intro c
    obtain ⟨f', hf', h⟩ := hg c
    rw [hf] at hf'
    injection hf' with hf'
    subst hf'
    exact h.symm
  unfold PolynomialDistortion.fit at hf
  rw [selected_eq hl] at hf
  simp only [Option.bind_eq_bind, Option.bind_some, Option.bind_eq_some_iff, Option.pure_def,
    Option.some.injEq] at hf
  obtain ⟨a, ha, b, hb, rfl⟩ := hf
  have h1 := polyFit_least ha qx hx
  have h2 := polyFit_least hb qy hy
  rw [List.map_map, List.map_map] at h1 h2
  rw [List.sum_map_add, List.sum_map_add]
  refine add_le_add (le_trans (le_of_eq ?_) h1) (le_trans (le_of_eq ?_) h2)
  · congr 1
    apply List.map_congr_left
    intro q _
    rw [hgf]
    rfl
  · congr 1
    apply List.map_congr_left
    intro q _
    rw [hgf]
    rfl

theorem fit_center (m : PolynomialDistortion) (k : Spectral) : m.fit = m.selected.bind fun l =>
    (polyFit m.degree k (l.map fun q => (q.1, q.2.x))).bind fun x =>
      (polyFit m.degree k (l.map fun q => (q.1, q.2.y))).bind fun y => some (x, y) := by
  unfold PolynomialDistortion.fit
  simp only [Option.bind_eq_bind, Option.pure_def]
  congr 1
  funext l
  rw [polyFit_center _ (spectralMean (m.points.map (·.scene))) k,
    polyFit_center _ (spectralMean (m.points.map (·.scene))) k]

/-- **C66.** Calibration points excluded by the mask have no influence on `distort`, whatever their
values. -/
theorem C66_masked (m m' : PolynomialDistortion) (hd : m.degree = m'.degree)
    (h : m.points.filter (·.where_) = m'.points.filter (·.where_)) (c : Spectral) :
    m.distort c = m'.distort c := by
  have hs : m.selected = m'.selected := by
    unfold PolynomialDistortion.selected
    rw [h]
  unfold PolynomialDistortion.distort
  rw [fit_center m ⟨0, 0, 0⟩, fit_center m' ⟨0, 0, 0⟩, hs, hd]

theorem inputs_eq {m : PolynomialDistortion} (hfin : ∀ p ∈ m.points, p.sensor ≠ none) :
    ∃ l, allFinite (m.points.map fun p => p.sensor.map fun s =>
      (⟨p.scene.wavelength, s.x, s.y⟩ : Spectral)) = some l := by
  refine ⟨_, allFinite_map_some m.points _ (fun p =>
    ⟨p.scene.wavelength, (p.sensor.getD ⟨0, 0⟩).x, (p.sensor.getD ⟨0, 0⟩).y⟩) ?_⟩
  intro p hp
  obtain ⟨s, hs⟩ := Option.ne_none_iff_exists'.1 (hfin p hp)
  rw [hs]
  rfl

/-- **C66.** The same for the mapping back, provided that the sensor positions of all points,
including those which are excluded, are finite. -/
theorem C66_inverse_partial (m : PolynomialDistortion) {l : List (Spectral × V2)} (hl : m.Selected l)
    (hfin : ∀ p ∈ m.points, p.sensor ≠ none)
    (qx qy : MvPolynomial (Fin 3) ℝ) (hx : qx.totalDegree ≤ m.degree)
    (hy : qy.totalDegree ≤ m.degree)
    (h : ∀ q ∈ l, q.1.x = MvPolynomial.eval (Spectral.coord ⟨q.1.wavelength, q.2.x, q.2.y⟩) qx ∧
      q.1.y = MvPolynomial.eval (Spectral.coord ⟨q.1.wavelength, q.2.x, q.2.y⟩) qy)
    (hu : Unisolvent m.degree (l.map fun q => ⟨q.1.wavelength, q.2.x, q.2.y⟩)) (c : Spectral) :
    m.undistort c = some ⟨c.wavelength, MvPolynomial.eval c.coord qx,
      MvPolynomial.eval c.coord qy⟩ := by
  obtain ⟨inputs, hin⟩ := inputs_eq hfin
  unfold PolynomialDistortion.undistort PolynomialDistortion.fitInverse
  rw [selected_eq hl, hin]
  have e1 := polyFit_exact (d := m.degree) (center := spectralMean inputs)
    (points := l.map fun q => (⟨q.1.wavelength, q.2.x, q.2.y⟩, q.1.x)) qx hx (by
      intro p hp
      obtain ⟨q, hq, rfl⟩ := List.mem_map.1 hp
      exact (h q hq).1) (by rw [List.map_map]; exact hu)
  have e2 := polyFit_exact (d := m.degree) (center := spectralMean inputs)
    (points := l.map fun q => (⟨q.1.wavelength, q.2.x, q.2.y⟩, q.1.y)) qy hy (by
      intro p hp
      obtain ⟨q, hq, rfl⟩ := List.mem_map.1 hp
      exact (h q hq).2) (by rw [List.map_map]; exact hu)
  simp only [Option.bind_eq_bind, Option.bind_some, e1, e2, Option.pure_def]

/-- Points determine a polynomial if their images under an invertible affine mapping do. -/
theorem unisolvent_map {d : ℕ} {points : List Spectral} (h : Unisolvent d points)
    (φ ψ : Spectral → Spectral) (h1 : (fun p => (φ p).wavelength) ∈ PolyFun 1)
    (h2 : (fun p => (φ p).x) ∈ PolyFun 1) (h3 : (fun p => (φ p).y) ∈ PolyFun 1)
    (hφ : ∀ p, φ (ψ p) = p) : Unisolvent d (points.map φ) := by
  rw [unisolvent_iff] at h ⊢
  intro g hg h0
  have h4 := h _ (polyFun_comp hg h1 h2 h3) fun p hp => h0 _ (List.mem_map.2 ⟨p, hp, rfl⟩)
  funext p
  have := congrFun h4 (ψ p)
  rw [← hφ p]
  exact this

theorem polyFun_affine (a b c e : ℝ) {d : ℕ} (hd : 1 ≤ d) :
    (fun p : Spectral => a * p.wavelength + b * p.x + c * p.y + e) ∈ PolyFun d := by
  apply polyFun_mono hd
  refine Submodule.add_mem _ (Submodule.add_mem _ (Submodule.add_mem _ ?_ ?_) ?_)
    (polyFun_const _ _)
  · exact Submodule.smul_mem _ a polyFun_coord.1
  · exact Submodule.smul_mem _ b polyFun_coord.2.1
  · exact Submodule.smul_mem _ c polyFun_coord.2.2

/-- **C66.** If the positions on the sensor are an invertible affine function of position, displaced
in proportion to wavelength, then `undistort` and `distort` are inverse to each other. -/
theorem C66_round_trip_partial (m : PolynomialDistortion) {l : List (Spectral × V2)} (hl : m.Selected l)
    (hfin : ∀ p ∈ m.points, p.sensor ≠ none) (hd : 1 ≤ m.degree)
    (a b c e a' b' c' e' : ℝ) (hdet : b * c' - c * b' ≠ 0)
    (h : ∀ q ∈ l, q.2 = ⟨a * q.1.wavelength + b * q.1.x + c * q.1.y + e,
      a' * q.1.wavelength + b' * q.1.x + c' * q.1.y + e'⟩)
    (hu : Unisolvent m.degree (l.map Prod.fst)) (p : Spectral) :
    (∃ s, m.distort p = some s ∧ m.undistort s = some p) ∧
      ∃ s, m.undistort p = some s ∧ m.distort s = some p := by
  obtain ⟨qx, hqx, ex⟩ := polyFun_exists (polyFun_affine a b c e hd)
  obtain ⟨qy, hqy, ey⟩ := polyFun_exists (polyFun_affine a' b' c' e' hd)
  let D := b * c' - c * b'
  have hDD : b * c' - c * b' = D := rfl
  have hD : D ≠ 0 := hdet
  obtain ⟨rx, hrx, fx⟩ := polyFun_exists (polyFun_affine ((c * a' - a * c') / D) (c' / D) (-c / D)
    ((c * e' - e * c') / D) hd)
  obtain ⟨ry, hry, fy⟩ := polyFun_exists (polyFun_affine ((a * b' - b * a') / D) (-b' / D) (b / D)
    ((e * b' - b * e') / D) hd)
  have hdist : ∀ p, m.distort p = some ⟨p.wavelength, a * p.wavelength + b * p.x + c * p.y + e,
      a' * p.wavelength + b' * p.x + c' * p.y + e'⟩ := by
    intro p
    rw [ex p, ey p]
    refine C66_exact m hl qx qy hqx hqy (fun q hq => ?_) hu p
    rw [h q hq, ← ex, ← ey]
  have hund : ∀ p, m.undistort p = some ⟨p.wavelength, (c * a' - a * c') / D * p.wavelength
      + c' / D * p.x + -c / D * p.y + (c * e' - e * c') / D, (a * b' - b * a') / D * p.wavelength
      + -b' / D * p.x + b / D * p.y + (e * b' - b * e') / D⟩ := by
    intro p
    rw [fx p, fy p]
    refine C66_inverse_partial m hl hfin rx ry hrx hry (fun q hq => ?_) ?_ p
    · rw [← fx, ← fy, h q hq]
      dsimp only
      constructor
      · field_simp
        rw [← hDD]
        ring
      · field_simp
        rw [← hDD]
        ring
    · have := unisolvent_map hu
        (fun p => ⟨p.wavelength, a * p.wavelength + b * p.x + c * p.y + e,
          a' * p.wavelength + b' * p.x + c' * p.y + e'⟩)
        (fun p => ⟨p.wavelength, (c * a' - a * c') / D * p.wavelength
      + c' / D * p.x + -c / D * p.y + (c * e' - e * c') / D, (a * b' - b * a') / D * p.wavelength
      + -b' / D * p.x + b / D * p.y + (e * b' - b * e') / D⟩)
        polyFun_coord.1 (polyFun_affine a b c e (le_refl 1)) (polyFun_affine a' b' c' e' (le_refl 1))
        (by
          rintro ⟨w, x, y⟩
          simp only [Spectral.mk.injEq]
          refine ⟨trivial, ?_, ?_⟩
          · field_simp
            rw [← hDD]
            ring
          · field_simp
            rw [← hDD]
            ring)
      rw [List.map_map] at this
      convert this using 1
      apply List.map_congr_left
      intro q hq
      rw [h q hq]
      rfl
  refine ⟨⟨_, hdist p, ?_⟩, ⟨_, hund p, ?_⟩⟩
  · rw [hund]
    obtain ⟨w, x, y⟩ := p
    simp only [Option.some.injEq, Spectral.mk.injEq]
    refine ⟨trivial, ?_, ?_⟩
    · field_simp
      rw [← hDD]
      ring
    · field_simp
      rw [← hDD]
      ring
  · rw [hdist]
    obtain ⟨w, x, y⟩ := p
    simp only [Option.some.injEq, Spectral.mk.injEq]
    refine ⟨trivial, ?_, ?_⟩
    · field_simp
      rw [← hDD]
      ring
    · field_simp
      rw [← hDD]
      ring

/-- **C66.** The vignetting model reproduces an illumination which is a polynomial of degree at most
`degree`. -/
theorem C66_vignetting (m : PolynomialVignetting) (q : MvPolynomial (Fin 3) ℝ)
    (hq : q.totalDegree ≤ m.degree)
    (h : ∀ p ∈ m.points, p.2.2 = true → p.2.1 = MvPolynomial.eval p.1.coord q)
    (hu : Unisolvent m.degree ((m.points.filter (·.2.2)).map (·.1))) (c : Spectral) :
    m.call c = some (MvPolynomial.eval c.coord q) := by
  unfold PolynomialVignetting.call
  rw [polyFit_exact q hq (by
      intro p hp
      obtain ⟨r, hr, rfl⟩ := List.mem_map.1 hp
      obtain ⟨hr1, hr2⟩ := List.mem_filter.1 hr
      exact h r hr1 hr2) (by rw [List.map_map]; exact hu)]
  rfl

/-- **C66.** It has the least sum of squared residuals, and points excluded by the mask have no
influence. -/
theorem C66_vignetting_least_squares (m m' : PolynomialVignetting) (hd : m.degree = m'.degree)
    (h : m.points.filter (·.2.2) = m'.points.filter (·.2.2)) {g : Spectral → ℝ}
    (hg : ∀ c, m.call c = some (g c)) :
    (∀ c, m'.call c = some (g c)) ∧
    ∀ q : MvPolynomial (Fin 3) ℝ, q.totalDegree ≤ m.degree →
      ((m.points.filter (·.2.2)).map fun p => (g p.1 - p.2.1) ^ 2).sum
        ≤ ((m.points.filter (·.2.2)).map fun p =>
          (MvPolynomial.eval p.1.coord q - p.2.1) ^ 2).sum := by
  have hg0 := hg ⟨0, 0, 0⟩
  unfold PolynomialVignetting.call at hg hg0 ⊢
  obtain ⟨f, hf, -⟩ := Option.map_eq_some_iff.1 hg0
  have hgf : g = f := by
    funext c
    have := hg c
    rw [hf] at this
    exact (Option.some.inj this).symm
  subst hgf
  constructor
  · intro c
    rw [← h, ← hd, polyFit_center _ _ (spectralMean (m.points.map (·.1))), hf]
    rfl
  · intro q hq
    have := polyFit_least hf q hq
    rw [List.map_map, List.map_map] at this
    exact this

/-- Polynomials of degree one. -/
theorem polyFun_one_eq {g : Spectral → ℝ} (hg : g ∈ PolyFun 1) (p : Spectral) :
    g p = g ⟨0, 0, 0⟩ + p.wavelength * (g ⟨1, 0, 0⟩ - g ⟨0, 0, 0⟩)
      + p.x * (g ⟨0, 1, 0⟩ - g ⟨0, 0, 0⟩) + p.y * (g ⟨0, 0, 1⟩ - g ⟨0, 0, 0⟩) := by
  unfold PolyFun at hg
  induction hg using Submodule.span_induction with
  | mem f hf =>
    obtain ⟨⟨⟨i, j, k⟩, he⟩, rfl⟩ := hf
    have h := mem_exponents.1 he
    dsimp only at h ⊢
    have hi : i ≤ 1 := by omega
    have hj : j ≤ 1 := by omega
    have hk : k ≤ 1 := by omega
    interval_cases i <;> interval_cases j <;> interval_cases k <;>
      first | omega | simp [fitMonomial]
  | zero => simp
  | add f f' _ _ h1 h2 =>
    simp only [Pi.add_apply]
    rw [h1, h2]
    ring
  | smul a f _ h =>
    simp only [Pi.smul_apply, smul_eq_mul]
    rw [h]
    ring

theorem unisolvent_corners :
    Unisolvent 1 [⟨0, 0, 0⟩, ⟨1, 0, 0⟩, ⟨0, 1, 0⟩, ⟨0, 0, 1⟩] := by
  rw [unisolvent_iff]
  intro g hg h0
  funext p
  rw [polyFun_one_eq hg p, h0 ⟨0, 0, 0⟩ (by simp), h0 ⟨1, 0, 0⟩ (by simp), h0 ⟨0, 1, 0⟩ (by simp),
    h0 ⟨0, 0, 1⟩ (by simp)]
  simp

/-- Four calibration points, dispersed in proportion to wavelength and magnified, and a fifth one that
is excluded. -/
def cornerDistortion (excluded : Option V2) : PolynomialDistortion where
  points := [⟨⟨0, 0, 0⟩, some ⟨0, 0⟩, true⟩, ⟨⟨1, 0, 0⟩, some ⟨5, 0⟩, true⟩,
    ⟨⟨0, 1, 0⟩, some ⟨2, 0⟩, true⟩, ⟨⟨0, 0, 1⟩, some ⟨0, 3⟩, true⟩, ⟨⟨7, 8, 9⟩, excluded, false⟩]
  degree := 1

theorem corner_selected (o : Option V2) : (cornerDistortion o).Selected
    [(⟨0, 0, 0⟩, ⟨0, 0⟩), (⟨1, 0, 0⟩, ⟨5, 0⟩), (⟨0, 1, 0⟩, ⟨2, 0⟩), (⟨0, 0, 1⟩, ⟨0, 3⟩)] := rfl

/-- The hypotheses of `C66_round_trip_partial` and `C66_exact` hold for this grid of points. -/
theorem corner_round_trip (p : Spectral) :
    ∃ s, (cornerDistortion (some ⟨100, 100⟩)).distort p = some s ∧
      (cornerDistortion (some ⟨100, 100⟩)).undistort s = some p := by
  refine (C66_round_trip_partial _ (corner_selected _) ?_ (le_refl 1) 5 2 0 0 0 0 3 0 (by norm_num) ?_
    unisolvent_corners p).1
  · intro p hp
    simp only [cornerDistortion, List.mem_cons, List.not_mem_nil, or_false] at hp
    rcases hp with rfl | rfl | rfl | rfl | rfl <;> simp
  · intro q hq
    simp only [List.mem_cons, List.not_mem_nil, or_false] at hq
    rcases hq with rfl | rfl | rfl | rfl <;> norm_num

/-- **C66, what does not hold.** A calibration point that is excluded has no influence on `undistort`
only as long as its position on the sensor is finite: if it is not (no ray of this field point reaches
the sensor), `distort` is as before, but `undistort` is undefined everywhere. -/
theorem C66_masked_nan_counterexample (p : Spectral) :
    (cornerDistortion none).distort p = (cornerDistortion (some ⟨100, 100⟩)).distort p ∧
    ((cornerDistortion none).distort p).isSome ∧
    ((cornerDistortion (some ⟨100, 100⟩)).undistort p).isSome ∧
    (cornerDistortion none).undistort p = none := by
  refine ⟨C66_masked _ _ rfl rfl p, (C66_defined _ (corner_selected _) p).2 unisolvent_corners,
    ?_, ?_⟩
  · obtain ⟨s, hs, -⟩ := (C66_round_trip_partial _ (corner_selected (some ⟨100, 100⟩)) (by
      intro p hp
      simp only [cornerDistortion, List.mem_cons, List.not_mem_nil, or_false] at hp
      rcases hp with rfl | rfl | rfl | rfl | rfl <;> simp) (le_refl 1) 5 2 0 0 0 0 3 0
      (by norm_num) (by
      intro q hq
      simp only [List.mem_cons, List.not_mem_nil, or_false] at hq
      rcases hq with rfl | rfl | rfl | rfl <;> norm_num) unisolvent_corners p).2
    rw [hs]
    rfl
  · unfold PolynomialDistortion.undistort PolynomialDistortion.fitInverse
    rw [selected_eq (corner_selected none), allFinite_none (by simp [cornerDistortion])]
    rfl

/-- An illumination that falls off linearly, from four points; a fifth one is excluded. -/
example (c : Spectral) : (⟨[(⟨0, 0, 0⟩, 1, true), (⟨1, 0, 0⟩, 1, true), (⟨0, 1, 0⟩, 1 / 2, true),
    (⟨0, 0, 1⟩, 1, true), (⟨3, 4, 5⟩, 0, false)], 1⟩ : PolynomialVignetting).call c
      = some (1 - c.x / 2) := by
  obtain ⟨q, hq, e⟩ := polyFun_exists (polyFun_affine 0 (-1 / 2) 0 1 (le_refl 1))
  rw [C66_vignetting _ q hq ?_ unisolvent_corners c, ← e]
  · congr 1
    ring
  · intro p hp
    rw [← e]
    simp only [List.mem_cons, List.not_mem_nil, or_false] at hp
    rcases hp with rfl | rfl | rfl | rfl | rfl <;> norm_num

end Optika
