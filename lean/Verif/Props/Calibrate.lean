import Verif.Model.Calibrate
import Verif.Props.Lost
import Verif.Props.Fit
import Mathlib.Algebra.BigOperators.Field

/-! # C115 -/

namespace Optika

/-- The ray has struck the sensor inside of all apertures. -/
def PartialRay.Arrives (r : PartialRay) : Prop := r.unvignetted = true ∧ r.position ≠ none

/-- The mean position of the rays that arrive. -/
def IsMeanArrival {P : Type} [Fintype P] (rays : P → PartialRay) (m : V2) : Prop :=
  open Classical in
  ∃ x : P → V3, (∀ p, (rays p).Arrives → (rays p).position = some (x p)) ∧
    m.x = (∑ p ∈ Finset.univ.filter (fun p => (rays p).Arrives), (x p).x) /
      ((Finset.univ.filter (fun p => (rays p).Arrives)).card : ℝ) ∧
    m.y = (∑ p ∈ Finset.univ.filter (fun p => (rays p).Arrives), (x p).y) /
      ((Finset.univ.filter (fun p => (rays p).Arrives)).card : ℝ)

/-- A polynomial of a degree is determined by its values at the points of the scene from which rays
arrive. -/
def TracedGrid.Determines {W F P : Type} (t : TracedGrid W F P) (d : ℕ) : Prop :=
  ∀ q : MvPolynomial (Fin 3) ℝ, q.totalDegree ≤ d →
    (∀ w f, (∃ p, (t.rays w f p).Arrives) → MvPolynomial.eval (t.scene w f).coord q = 0) → q = 0

/-- The number of rays that arrive. -/
noncomputable def TracedGrid.arrivals {W F P : Type} [Fintype P] (t : TracedGrid W F P) (w : W)
    (f : F) : ℝ :=
  open Classical in ((Finset.univ.filter fun p => (t.rays w f p).Arrives).card : ℝ)

section
variable {W F P : Type} [Fintype W] [Fintype F] [Fintype P] {t : TracedGrid W F P}

theorem arrives_iff {ss : List LossySurface} {s : LossySurface} (hs : s.Looks) {r out : PartialRay}
    (h : propagateLossy (ss ++ [s]) r = some out) : out.Arrives ↔ out.unvignetted = true :=
  ⟨fun h => h.1, fun hv => ⟨hv, (C114_arrives hs h hv).1⟩⟩

theorem seen_iff {ss : List LossySurface} {s : LossySurface} (hs : s.Looks)
    {r : W → F → P → PartialRay}
    (h : ∀ w f p, propagateLossy (ss ++ [s]) (r w f p) = some (t.rays w f p)) (w : W) (f : F) :
    t.seen w f = true ↔ ∃ p, (t.rays w f p).Arrives := by
  unfold TracedGrid.seen anyUnvignetted
  simp only [decide_eq_true_eq]
  exact exists_congr fun p => (arrives_iff hs (h w f p)).symm

theorem mean_unique {rays : P → PartialRay} {m m' : V2} (h : IsMeanArrival rays m)
    (h' : IsMeanArrival rays m') : m = m' := by
  classical
  obtain ⟨x, hx, h1, h2⟩ := h
  obtain ⟨x', hx', h1', h2'⟩ := h'
  have e : ∀ p, (rays p).Arrives → x p = x' p := fun p hp =>
    Option.some.inj ((hx p hp).symm.trans (hx' p hp))
  have hxs : ∑ p ∈ Finset.univ.filter (fun p => (rays p).Arrives), (x p).x =
      ∑ p ∈ Finset.univ.filter (fun p => (rays p).Arrives), (x' p).x :=
    Finset.sum_congr rfl fun p hp => by rw [e p (Finset.mem_filter.1 hp).2]
  have hys : ∑ p ∈ Finset.univ.filter (fun p => (rays p).Arrives), (x p).y =
      ∑ p ∈ Finset.univ.filter (fun p => (rays p).Arrives), (x' p).y :=
    Finset.sum_congr rfl fun p hp => by rw [e p (Finset.mem_filter.1 hp).2]
  cases m; cases m'
  simp only at h1 h2 h1' h2'
  rw [h1, h2, h1', h2']
  congr 2

/-- The position of a calibration point from which rays arrive is their mean position. -/
theorem point_mean {ss : List LossySurface} {s : LossySurface} (hs : s.Looks)
    {r : W → F → P → PartialRay}
    (h : ∀ w f p, propagateLossy (ss ++ [s]) (r w f p) = some (t.rays w f p)) (w : W) (f : F)
    (hseen : t.seen w f = true) :
    ∃ m, (t.calibrationPoint w f).sensor = some m ∧ IsMeanArrival (t.rays w f) m := by
  classical
  have ha := (seen_iff hs h w f).1 hseen
  have hu : ∃ p, (t.rays w f p).unvignetted = true := ha.imp fun p hp => hp.1
  obtain ⟨x, hx, ex⟩ := C114_mean hs (r w f) (t.rays w f) (h w f) hu V3.x
  obtain ⟨y, hy, ey⟩ := C114_mean hs (r w f) (t.rays w f) (h w f) hu V3.y
  have hfil : Finset.univ.filter (fun p => (t.rays w f p).Arrives) =
      Finset.univ.filter (fun p => (t.rays w f p).unvignetted = true) := by
    ext p
    simp only [Finset.mem_filter, Finset.mem_univ, true_and]
    exact arrives_iff hs (h w f p)
  refine ⟨⟨(∑ p ∈ Finset.univ.filter (fun p => (t.rays w f p).unvignetted = true), x p) /
    ((Finset.univ.filter (fun p => (t.rays w f p).unvignetted = true)).card : ℝ),
    (∑ p ∈ Finset.univ.filter (fun p => (t.rays w f p).unvignetted = true), y p) /
    ((Finset.univ.filter (fun p => (t.rays w f p).unvignetted = true)).card : ℝ)⟩, ?_, ?_⟩
  · unfold TracedGrid.calibrationPoint
    simp only [ex, ey, Option.bind_eq_bind, Option.bind_some, Option.pure_def]
  · refine ⟨fun p => ((t.rays w f p).position).getD ⟨0, 0, 0⟩, fun p hp => ?_, ?_, ?_⟩
    · obtain ⟨v, hv⟩ := Option.ne_none_iff_exists'.1 hp.2
      simp only [hv, Option.getD_some]
    · dsimp only
      rw [hfil]
      congr 1
      refine Finset.sum_congr rfl fun p hp => ?_
      have := hx p (Finset.mem_filter.1 hp).2
      obtain ⟨v, hv, e⟩ := Option.map_eq_some_iff.1 this
      rw [hv, ← e]
      rfl
    · dsimp only
      rw [hfil]
      congr 1
      refine Finset.sum_congr rfl fun p hp => ?_
      have := hy p (Finset.mem_filter.1 hp).2
      obtain ⟨v, hv, e⟩ := Option.map_eq_some_iff.1 this
      rw [hv, ← e]
      rfl

/-- The points that are selected. -/
theorem selected_points {ss : List LossySurface} {s : LossySurface} (hs : s.Looks)
    {r : W → F → P → PartialRay}
    (h : ∀ w f p, propagateLossy (ss ++ [s]) (r w f p) = some (t.rays w f p)) (d : ℕ)
    {m : W → F → V2} (hm : ∀ w f, (∃ p, (t.rays w f p).Arrives) → IsMeanArrival (t.rays w f) (m w f)) :
    (t.distortion d).Selected (((Finset.univ : Finset (W × F)).toList.filter
      fun g => t.seen g.1 g.2).map fun g => (t.scene g.1 g.2, m g.1 g.2)) := by
  unfold PolynomialDistortion.Selected TracedGrid.distortion
  rw [List.filter_map, List.map_map, List.map_map]
  refine List.map_congr_left fun g hg => ?_
  have hg' : t.seen g.1 g.2 = true := (List.mem_filter.1 hg).2
  obtain ⟨m', h1, h2⟩ := point_mean hs h g.1 g.2 hg'
  have := mean_unique h2 (hm g.1 g.2 ((seen_iff hs h _ _).1 hg'))
  simp only [Function.comp_apply, h1, this]
  rfl

theorem determines_unisolvent {ss : List LossySurface} {s : LossySurface} (hs : s.Looks)
    {r : W → F → P → PartialRay}
    (h : ∀ w f p, propagateLossy (ss ++ [s]) (r w f p) = some (t.rays w f p)) {d : ℕ} :
    Unisolvent d (((Finset.univ : Finset (W × F)).toList.filter
      fun g => t.seen g.1 g.2).map fun g => t.scene g.1 g.2) ↔ t.Determines d := by
  unfold Unisolvent TracedGrid.Determines
  refine forall_congr' fun q => forall_congr' fun _ => ?_
  apply imp_congr_left
  constructor
  · intro h0 w f hw
    refine h0 _ (List.mem_map.2 ⟨(w, f), List.mem_filter.2 ⟨?_, ?_⟩, rfl⟩)
    · simp
    · exact (seen_iff hs h w f).2 hw
  · intro h0 p hp
    obtain ⟨g, hg, rfl⟩ := List.mem_map.1 hp
    exact h0 _ _ ((seen_iff hs h _ _).1 (List.mem_filter.1 hg).2)

/-- **C115**: if the mean position of the rays that arrive is a polynomial of at most the degree in
wavelength and field, at the points of the grid from which rays arrive, and these points determine such
a polynomial, then the distortion model of a system is this polynomial for all wavelengths and field
positions, whatever rays are vignetted or lost. -/
theorem C115_distortion {ss : List LossySurface} {s : LossySurface} (hs : s.Looks)
    {r : W → F → P → PartialRay}
    (h : ∀ w f p, propagateLossy (ss ++ [s]) (r w f p) = some (t.rays w f p)) {d : ℕ}
    (qx qy : MvPolynomial (Fin 3) ℝ) (hx : qx.totalDegree ≤ d) (hy : qy.totalDegree ≤ d)
    (hp : ∀ w f, (∃ p, (t.rays w f p).Arrives) → IsMeanArrival (t.rays w f)
      ⟨MvPolynomial.eval (t.scene w f).coord qx, MvPolynomial.eval (t.scene w f).coord qy⟩)
    (hu : t.Determines d) (c : Spectral) :
    (t.distortion d).distort c = some ⟨c.wavelength, MvPolynomial.eval c.coord qx,
      MvPolynomial.eval c.coord qy⟩ := by
  refine C66_exact (t.distortion d) (selected_points hs h d hp) qx qy hx hy ?_ ?_ c
  · intro q hq
    obtain ⟨g, -, rfl⟩ := List.mem_map.1 hq
    rfl
  · rw [List.map_map]
    exact (determines_unisolvent hs h).2 hu

/-- **C115**: the distortion model is finite precisely if the points from which rays arrive determine a
polynomial of its degree. -/
theorem C115_defined {ss : List LossySurface} {s : LossySurface} (hs : s.Looks)
    {r : W → F → P → PartialRay}
    (h : ∀ w f p, propagateLossy (ss ++ [s]) (r w f p) = some (t.rays w f p)) (d : ℕ)
    (c : Spectral) : ((t.distortion d).distort c).isSome ↔ t.Determines d := by
  classical
  have hm : ∃ m : W → F → V2, ∀ w f, (∃ p, (t.rays w f p).Arrives) →
      IsMeanArrival (t.rays w f) (m w f) := by
    refine ⟨fun w f => ((t.calibrationPoint w f).sensor).getD ⟨0, 0⟩, fun w f hw => ?_⟩
    obtain ⟨m, h1, h2⟩ := point_mean hs h w f ((seen_iff hs h w f).2 hw)
    simpa [h1] using h2
  obtain ⟨m, hm⟩ := hm
  rw [C66_defined (t.distortion d) (selected_points hs h d hm) c, List.map_map]
  exact determines_unisolvent hs h

theorem sum_filter_list {α : Type} (l : List α) (b : α → Bool) (g : α → ℝ) :
    ((l.filter b).map g).sum = (l.map fun a => if b a = true then g a else 0).sum := by
  induction l with
  | nil => rfl
  | cons a l ih =>
    by_cases hb : b a = true
    · simp [hb, ih]
    · simp [hb, ih]

theorem sum_seen {ss : List LossySurface} {s : LossySurface} (hs : s.Looks)
    {r : W → F → P → PartialRay}
    (h : ∀ w f p, propagateLossy (ss ++ [s]) (r w f p) = some (t.rays w f p)) (g : W × F → ℝ) :
    open Classical in
    (((Finset.univ : Finset (W × F)).toList.filter fun g => t.seen g.1 g.2).map g).sum =
      ∑ w, ∑ f, if ∃ p, (t.rays w f p).Arrives then g (w, f) else 0 := by
  classical
  rw [sum_filter_list, Finset.sum_map_toList, Fintype.sum_prod_type]
  refine Finset.sum_congr rfl fun w _ => Finset.sum_congr rfl fun f _ => ?_
  simp only [seen_iff hs h]

/-- **C115**: in any case the distortion model has the least sum of squared distances from the mean
positions of the rays that arrive, among all polynomials of at most the degree. -/
theorem C115_least_squares {ss : List LossySurface} {s : LossySurface} (hs : s.Looks)
    {r : W → F → P → PartialRay}
    (h : ∀ w f p, propagateLossy (ss ++ [s]) (r w f p) = some (t.rays w f p)) {d : ℕ}
    {m : W → F → V2} (hm : ∀ w f, (∃ p, (t.rays w f p).Arrives) → IsMeanArrival (t.rays w f) (m w f))
    {g : Spectral → Spectral} (hg : ∀ c, (t.distortion d).distort c = some (g c))
    (qx qy : MvPolynomial (Fin 3) ℝ) (hx : qx.totalDegree ≤ d) (hy : qy.totalDegree ≤ d) :
    open Classical in
    (∑ w, ∑ f, if ∃ p, (t.rays w f p).Arrives then
        ((g (t.scene w f)).x - (m w f).x) ^ 2 + ((g (t.scene w f)).y - (m w f).y) ^ 2 else 0) ≤
      ∑ w, ∑ f, if ∃ p, (t.rays w f p).Arrives then
        (MvPolynomial.eval (t.scene w f).coord qx - (m w f).x) ^ 2 +
          (MvPolynomial.eval (t.scene w f).coord qy - (m w f).y) ^ 2 else 0 := by
  have := C66_least_squares (t.distortion d) (selected_points hs h d hm) hg qx qy hx hy
  rw [List.map_map, List.map_map, sum_seen hs h, sum_seen hs h] at this
  exact this

/-- The number of rays that arrive is the sum of the flags. -/
theorem arrivals_sum {ss : List LossySurface} {s : LossySurface} (hs : s.Looks)
    {r : W → F → P → PartialRay}
    (h : ∀ w f p, propagateLossy (ss ++ [s]) (r w f p) = some (t.rays w f p)) (w : W) (f : F) :
    ∑ p, toReal (t.rays w f p).unvignetted = t.arrivals w f := by
  classical
  unfold TracedGrid.arrivals toReal
  rw [Finset.card_filter]
  push_cast
  refine Finset.sum_congr rfl fun p _ => ?_
  simp only [arrives_iff hs (h w f p)]

/-- **C115**: if the number of rays that arrive, in proportion to its mean over the field points from
which rays of this wavelength arrive, is a polynomial of at most the degree, and the points determine
such a polynomial, then the vignetting model of a system is this polynomial. -/
theorem C115_vignetting {ss : List LossySurface} {s : LossySurface} (hs : s.Looks)
    {r : W → F → P → PartialRay}
    (h : ∀ w f p, propagateLossy (ss ++ [s]) (r w f p) = some (t.rays w f p)) {d : ℕ}
    (q : MvPolynomial (Fin 3) ℝ) (hq : q.totalDegree ≤ d)
    (hp : open Classical in ∀ w f, (∃ p, (t.rays w f p).Arrives) →
      t.arrivals w f = MvPolynomial.eval (t.scene w f).coord q *
        ((∑ f, t.arrivals w f) /
          ((Finset.univ.filter fun f => ∃ p, (t.rays w f p).Arrives).card : ℝ)))
    (hu : t.Determines d) (c : Spectral) :
    (t.vignetting d).call c = some (MvPolynomial.eval c.coord q) := by
  classical
  refine C66_vignetting (t.vignetting d) q hq ?_ ?_ c
  · intro x hx hb
    obtain ⟨⟨w, f⟩, -, rfl⟩ := List.mem_map.1 hx
    have hseen : t.seen w f = true := hb
    have ha := (seen_iff hs h w f).1 hseen
    have hP : (0 : ℝ) < Fintype.card P := by
      obtain ⟨p, -⟩ := ha
      exact_mod_cast Fintype.card_pos_iff.2 ⟨p⟩
    have hfil : (Finset.univ.filter fun f => anyUnvignetted (fun p => (t.rays w f p).unvignetted)
        = true) = Finset.univ.filter fun f => ∃ p, (t.rays w f p).Arrives := by
      ext f
      simp only [Finset.mem_filter, Finset.mem_univ, true_and]
      exact seen_iff hs h w f
    have hz : ∀ f, ¬ (∃ p, (t.rays w f p).Arrives) → t.arrivals w f = 0 := by
      intro f hf
      unfold TracedGrid.arrivals
      rw [Finset.filter_false_of_mem fun p _ hp => hf ⟨p, hp⟩]
      simp
    have hnn : ∀ f, 0 ≤ t.arrivals w f := fun f => by
      unfold TracedGrid.arrivals; positivity
    have hpos : 0 < t.arrivals w f := by
      obtain ⟨p, hpa⟩ := ha
      unfold TracedGrid.arrivals
      exact_mod_cast Finset.card_pos.2 ⟨p, by simpa using hpa⟩
    have hsum : ∑ f ∈ Finset.univ.filter (fun f => ∃ p, (t.rays w f p).Arrives), t.arrivals w f =
        ∑ f, t.arrivals w f := by
      rw [Finset.sum_filter]
      refine Finset.sum_congr rfl fun f _ => ?_
      split
      · rfl
      · rename_i hf; exact (hz f hf).symm
    have hS : 0 < ∑ f, t.arrivals w f :=
      Finset.sum_pos' (fun f _ => hnn f) ⟨f, Finset.mem_univ _, hpos⟩
    have hn : (0 : ℝ) < ((Finset.univ.filter fun f => ∃ p, (t.rays w f p).Arrives).card : ℝ) := by
      exact_mod_cast Finset.card_pos.2 ⟨f, by simpa using ha⟩
    have hmean : meanWhere (fun f => t.arrivals w f / (Fintype.card P : ℝ))
        (fun f => anyUnvignetted fun p => (t.rays w f p).unvignetted) =
        some ((∑ f, t.arrivals w f) / (Fintype.card P : ℝ) /
          ((Finset.univ.filter fun f => ∃ p, (t.rays w f p).Arrives).card : ℝ)) := by
      unfold meanWhere div?
      rw [hfil, if_neg hn.ne', ← Finset.sum_div, hsum]
    have hill : illumination (fun f p => (t.rays w f p).unvignetted) f =
        some (MvPolynomial.eval (t.scene w f).coord q) := by
      unfold illumination
      simp only [arrivals_sum hs h]
      rw [hmean]
      simp only [Option.bind_eq_bind, Option.bind_some]
      unfold div?
      rw [if_neg (by positivity), hp w f ha]
      congr 1
      field_simp
    change (illumination (fun f p => (t.rays w f p).unvignetted) f).getD 0 = _
    rw [hill]
    rfl
  · have := (determines_unisolvent hs h).2 hu
    unfold TracedGrid.vignetting
    rw [List.filter_map, List.map_map]
    exact this

end

/-! ### Cases -/

/-- A grid of two wavelengths and four field points; the light of the last one is parallel to the
sensor. -/
noncomputable def fourRays (w : Bool) (f : Fin 4) : Ray :=
  ⟨if w then 1 else 0, ⟨if f = 1 then 1 else 0, if f = 2 then 1 else 0, -1⟩,
    if f = 3 then ⟨1, 0, 0⟩ else ⟨0, 0, 1⟩, 1, 0, 1, true⟩

/-- Where these rays come out. -/
noncomputable def fourArrivals (w : Bool) (f : Fin 4) : PartialRay :=
  if f = 3 then ⟨some (if w then 1 else 0), none, some ⟨1, 0, 0⟩, none, some 0, some 1, false⟩ else
    ⟨some (if w then 1 else 0), some ⟨if f = 1 then 1 else 0, if f = 2 then 1 else 0, 0⟩,
      some ⟨0, 0, 1⟩, some 1, some 0, some 1, true⟩

/-- The grid. -/
noncomputable def fourGrid : TracedGrid Bool (Fin 4) Unit where
  scene w f := ⟨if w then 1 else 0, if f = 1 then 1 else 0, if f = 2 then 1 else 0⟩
  rays w f _ := fourArrivals w f

theorem four_traced (w : Bool) (f : Fin 4) (p : Unit) :
    propagateLossy ([] ++ [roundDetector false]) (fourRays w f).known = some (fourGrid.rays w f p) := by
  have h1 : snellsLaw ⟨0, 0, 1⟩ 1 1 false ⟨0, 0, -1⟩ = some ⟨0, 0, 1⟩ := by
    unfold snellsLaw
    norm_num [div?, sqrt?, copysign1]
  have h2 : snellsLaw ⟨1, 0, 0⟩ 1 1 false ⟨0, 0, -1⟩ = some ⟨1, 0, 0⟩ := by
    unfold snellsLaw
    norm_num [div?, sqrt?, copysign1]
  unfold propagateLossy LossySurface.propagate roundDetector planeDetector plainLossy
  fin_cases f <;>
  · simp [LossySurface.strike, LossySurface.interact, LossySurface.clip, flatSag, flatIntercept,
      flatNormal, h1, h2, div?, vacuum, LossySurface.maskAt, applyFlags, circleMask, xyLength, toLocal,
      fourRays, fourArrivals, fourGrid, Ray.known]
    try norm_num

theorem four_determines : fourGrid.Determines 1 := by
  intro q hq h0
  refine unisolvent_corners q hq fun p hp => ?_
  have key : ∀ w f, f ≠ 3 → MvPolynomial.eval (fourGrid.scene w f).coord q = 0 := fun w f hf =>
    h0 w f ⟨(), by simp [fourGrid, fourArrivals, PartialRay.Arrives, hf]⟩
  simp only [List.mem_cons, List.not_mem_nil, or_false] at hp
  rcases hp with rfl | rfl | rfl | rfl
  · simpa [fourGrid] using key false 0 (by decide)
  · simpa [fourGrid] using key true 0 (by decide)
  · simpa [fourGrid] using key false 1 (by decide)
  · simpa [fourGrid] using key false 2 (by decide)

/-- The model of the grid, from `C115_distortion`. -/
theorem four_distort (c : Spectral) : (fourGrid.distortion 1).distort c = some c := by
  have := C115_distortion (t := fourGrid) (roundDetector_sensor.looks)
    (fun w f p => four_traced w f p) (d := 1) (MvPolynomial.X 1) (MvPolynomial.X 2)
    (by simp) (by simp) (by
      intro w f ⟨p, hp⟩
      have hf : f ≠ 3 := by
        rintro rfl
        simp [fourGrid, fourArrivals, PartialRay.Arrives] at hp
      refine ⟨fun _ => ⟨if f = 1 then 1 else 0, if f = 2 then 1 else 0, 0⟩, fun p _ => ?_, ?_, ?_⟩
      · simp [fourGrid, fourArrivals, hf]
      · simp [fourGrid, fourArrivals, hf, PartialRay.Arrives, Spectral.coord]
      · simp [fourGrid, fourArrivals, hf, PartialRay.Arrives, Spectral.coord]) four_determines c
  rw [this]
  simp [Spectral.coord]

/-- **C115**: since the rays of one field point are lost, the mapping back from the sensor to the scene
is not finite anywhere, though this field point is excluded and the mapping to the sensor is the
identity. -/
theorem C115_undistort_counterexample (c : Spectral) :
    (fourGrid.distortion 1).distort c = some c ∧ (fourGrid.distortion 1).undistort c = none := by
  refine ⟨four_distort c, ?_⟩
  unfold PolynomialDistortion.undistort PolynomialDistortion.fitInverse
  rw [allFinite_none (by
    refine List.mem_map.2 ⟨fourGrid.calibrationPoint false 3, ?_, ?_⟩
    · exact List.mem_map.2 ⟨(false, 3), by simp, rfl⟩
    · unfold TracedGrid.calibrationPoint coordinateLossy sumSelected
      simp [fourGrid, fourArrivals, anyUnvignetted])]
  cases (fourGrid.distortion 1).selected <;> rfl

/-- All points of the grid from which light arrives are equally bright. -/
example (c : Spectral) : (fourGrid.vignetting 1).call c = some 1 := by
  classical
  have hz : ∀ w f, fourGrid.arrivals w f = if f = 3 then 0 else 1 := by
    intro w f
    unfold TracedGrid.arrivals
    by_cases hf : f = 3
    · simp [fourGrid, fourArrivals, hf, PartialRay.Arrives]
    · simp [fourGrid, fourArrivals, hf, PartialRay.Arrives]
  have := C115_vignetting (t := fourGrid) (roundDetector_sensor.looks)
    (fun w f p => four_traced w f p) (d := 1) (MvPolynomial.C 1) (by simp) (by
      intro w f ⟨p, hp⟩
      have hf : f ≠ 3 := by
        rintro rfl
        simp [fourGrid, fourArrivals, PartialRay.Arrives] at hp
      have hfil : (Finset.univ.filter fun f => ∃ p, (fourGrid.rays w f p).Arrives) =
          (Finset.univ.filter fun f : Fin 4 => f ≠ 3) := by
        ext g
        by_cases hg : g = 3
        · simp [fourGrid, fourArrivals, hg, PartialRay.Arrives]
        · simp [fourGrid, fourArrivals, hg, PartialRay.Arrives]
      rw [hfil]
      simp only [hz, hf, Fin.sum_univ_four, if_false, if_true, show (0 : Fin 4) ≠ 3 by decide,
        show (1 : Fin 4) ≠ 3 by decide, show (2 : Fin 4) ≠ 3 by decide]
      have : (Finset.univ.filter fun f : Fin 4 => f ≠ 3).card = 3 := by decide
      rw [this]
      norm_num) four_determines c
  simpa using this

end Optika
