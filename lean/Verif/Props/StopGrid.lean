import Verif.Props.StopRays
import Verif.Props.System
import Verif.Props.Angles

/-!
# C69: field and pupil coordinates of the rays of the stops
-/

namespace Optika
open V3

theorem strikes_plain {all : List Surface} {k : ℕ} {grid : V2} {r r' : Ray}
    (hb : ∀ s ∈ all.take (k + 1), FlagBlind s) (h : r.plain = r'.plain) (hr : Strikes all k grid r) :
    Strikes all k grid r' := by
  obtain ⟨s, ap, out, h1, h2, h3, h4⟩ := hr
  have hp := propagateSurfaces_plain hb h
  rw [h3] at hp
  simp only [Option.map_some] at hp
  obtain ⟨out', ho, hpl⟩ := Option.map_eq_some_iff.1 hp.symm
  have e1 : out'.plain.position = out.plain.position := congrArg Ray.position hpl
  have e2 : out'.plain.direction = out.plain.direction := congrArg Ray.direction hpl
  simp only [Ray.plain] at e1 e2
  exact ⟨s, ap, out', h1, h2, ho, by rw [e1, e2]; exact h4⟩

/-- Coordinates of a ray that starts in the plane of an object without transformation give back the
ray. -/
theorem stopCoordinates_input {s : System} (hobj : s.object.surface.transformation = none) {r : Ray}
    (hr : Free r) (hi : r.intensity = 1) (hz : r.position.z = 0) :
    ∃ g, stopCoordinates s.objectAtInfinity r = some g ∧ g.wavelength = r.wavelength ∧
      ∃ r', s.calcInput g false false = some r' ∧ r'.plain = r.plain := by
  have hlen : r.direction.len = 1 := by unfold len; rw [hr.unit, Real.sqrt_one]
  have hne : r.direction ≠ 0 := by
    intro h; have := hr.unit; rw [h] at this; simp [dot] at this
  obtain ⟨a, ha, hd⟩ := C21_direction_angles r.direction hne
  rw [hlen, one_div_one, V3.one_smul] at hd
  have hp : (⟨r.position.x, r.position.y, 0⟩ : V3) = r.position := by
    rw [← hz]
  obtain ⟨w, p, d, i, at', n, b⟩ := r
  obtain ⟨f1, f2, f3⟩ := hr
  simp only at hi hz ha hd hp f1 f2
  subst hi f1 f2
  by_cases hinf : s.objectAtInfinity = true
  · refine ⟨⟨w, a, ⟨p.x, p.y⟩⟩, ?_, rfl, ⟨w, p, d, 1, 0, 1, true⟩, ?_, rfl⟩
    · simp [stopCoordinates, ha, hinf]
    · simp [System.calcInput, denormalizeGrid, hinf, hobj, hd, hp]
  · refine ⟨⟨w, ⟨p.x, p.y⟩, a⟩, ?_, rfl, ⟨w, p, d, 1, 0, 1, true⟩, ?_, rfl⟩
    · simp [stopCoordinates, ha, hinf]
    · simp [System.calcInput, denormalizeGrid, hinf, hobj, hd, hp]

/-- **C69**: if the object is a plane and one of the stops, and neither the object nor the system is
moved, then every ray of the stops has field and pupil coordinates, and the input ray for these
coordinates strikes the same points of the borders of both stops.
(Partial: for a moved object or a moved system it is false, see below.) -/
theorem C69_reproduce_partial (s : System) (solver : RootFinder) (guess : V2) (w : ℝ) (obj : Surface)
    (mid : List Surface) (last : Surface) (post : List Surface) (gridFirst gridLast : V2) (r : Ray)
    (hall : s.all = some (obj :: (mid ++ last :: post)))
    (hobj : Fold obj) (hvac : obj.material = vacuum) (htr : obj.transformation = none)
    (hT : s.transformation = none) (hblind : ∀ x ∈ mid ++ [last], FlagBlind x)
    (h : stopRays solver guess w (obj :: (mid ++ last :: post)) 0 (mid.length + 1)
      gridFirst gridLast s.transformation = some r) :
    ∃ g, stopCoordinates s.objectAtInfinity r = some g ∧ g.wavelength = w ∧
      ∃ r', s.calcInput g false false = some r' ∧
        Strikes (obj :: (mid ++ last :: post)) 0 gridFirst r' ∧
        Strikes (obj :: (mid ++ last :: post)) (mid.length + 1) gridLast r' := by
  rw [hT] at h
  have hframe : obj.frame = Rigid.id := by simp [Surface.frame, htr]
  obtain ⟨k1, k2, k3, -, k5, k6, k7⟩ := C68_object_partial solver guess w obj mid last post gridFirst
    gridLast none r hobj hvac hblind
    (by
      intro ap hap
      cases hu : ap.unit with
      | length => exact Or.inl ⟨rfl, by rw [hframe, Rigid.id_ivec]⟩
      | dimensionless => exact Or.inr ⟨rfl, Or.inl htr⟩
      | other => exact absurd hu (hobj.unit ap hap)) h
  simp only [Option.elim_none, hframe, Rigid.id_ipoint] at k1 k2 k3 k5 k6 k7
  have hso : s.object.surface.transformation = none := by
    have hhead : s.object.surface = obj := by
      have := System.all_eq s
      rw [hall] at this
      simp only [Option.some.injEq, List.cons_append, List.cons.injEq] at this
      exact this.1.symm
    rw [hhead]; exact htr
  obtain ⟨g, g1, g2, r', g3, g4⟩ := stopCoordinates_input hso k7 k6 k3
  have hb0 : FlagBlind obj := by
    refine ⟨?_, ?_, ?_, ?_⟩
    · intro r; rw [hvac]; rfl
    · intro r; rw [hvac]; rfl
    · intro r n; rw [hvac]; rfl
    · intro ru hru; rw [hobj.rulings] at hru; exact absurd hru (by simp)
  refine ⟨g, g1, by rw [g2, k5], r', g3, strikes_plain ?_ g4.symm k1, strikes_plain ?_ g4.symm k2⟩
  · intro x hx
    simp only [zero_add, List.take_succ_cons, List.take_zero, List.mem_singleton] at hx
    rw [hx]; exact hb0
  · intro x hx
    have htake := arrange_take_last [] obj mid last post
    unfold arrange at htake
    simp only [List.nil_append, List.length_nil, zero_add] at htake
    rw [show mid.length + 1 + 1 = 1 + mid.length + 1 by omega, htake] at hx
    simp only [List.cons_append, List.nil_append, List.mem_cons] at hx
    rcases hx with rfl | hx
    · exact hb0
    · exact hblind x hx

/-- A plane at the origin, without transformation. -/
noncomputable def originPlane : Surface :=
  ⟨flatSag, vacuum, some ⟨.length, fun _ => true⟩, none, none⟩

theorem originPlane_fold : Fold originPlane :=
  ⟨rfl, rfl, Or.inl rfl,
    by intro a ha; simp only [originPlane, Option.some.injEq] at ha; subst ha; simp⟩

/-- An object at the origin and a sensor at a distance of one, both of them stops. -/
noncomputable def originSystem : System :=
  ⟨⟨originPlane, true, false⟩, [], ⟨openPlane ⟨0, 0, 1⟩, false, true⟩, ⟨1, ⟨0, 0⟩, ⟨0, 0⟩⟩, false,
    fun _ => none, none⟩

/-- The ray from the centre of the object to the point `x = 3 / 4` of the sensor meets the hypotheses
of `C69_reproduce_partial`. -/
example : ∃ r g r', stopRays checkingSolver ⟨3 / 5, 0⟩ 1 [originPlane, openPlane ⟨0, 0, 1⟩] 0 1 ⟨0, 0⟩
      ⟨3 / 4, 0⟩ none = some r ∧
    stopCoordinates originSystem.objectAtInfinity r = some g ∧
    originSystem.calcInput g false false = some r' ∧
    Strikes [originPlane, openPlane ⟨0, 0, 1⟩] 1 ⟨3 / 4, 0⟩ r' := by
  have hstop : stopRay 1 originPlane .length ⟨0, 0⟩ ⟨3 / 5, 0⟩ =
      some ⟨1, 0, ⟨3 / 5, 0, 4 / 5⟩, 1, 0, 1, true⟩ := by
    simp only [stopRay, Option.bind_eq_bind]
    rw [sqrt45]
    simp only [originPlane, flatSag, flatHeight, Option.bind_some, Option.pure_def,
      Option.elim_none, Option.some.injEq, Ray.mk.injEq, and_true, true_and]
    rfl
  obtain ⟨b1, h1⟩ := openPlane_propagate ⟨0, 0, 1⟩ (free35 1 0 true) (by norm_num)
  have hfr : originPlane.frame = Rigid.id := rfl
  obtain ⟨r2, h2⟩ := fold_defined originPlane_fold (free35 1 0 true) (by
    rw [hfr, Rigid.id_ivec]; norm_num)
  obtain ⟨-, -, e2, -, -, -⟩ := fold_propagate originPlane_fold (free35 1 0 true) h2
  have hturn : ∀ d, originPlane.turn d = d := fun d => by simp [Surface.turn, originPlane, vacuum]
  rw [hturn, Rigid.vec_ivec] at e2
  have herr : rayError 1 originPlane .length ⟨0, 0⟩ [openPlane ⟨0, 0, 1⟩] (openPlane ⟨0, 0, 1⟩)
      .length ⟨3 / 4, 0⟩ ⟨3 / 5, 0⟩ = some ⟨0, 0⟩ := by
    simp only [rayError, hstop, Option.bind_eq_bind, Option.bind_some, propagateSurfaces_cons,
      propagateSurfaces_nil, h1, Option.pure_def]
    simp only [openPlane, Option.elim_some, Ray.unmove, stopComponent, Option.bind_some,
      translation_ipoint, Option.some.injEq, V2.mk.injEq]
    constructor <;> simp
  have ha : ∀ t, (openPlane t).aperture = some ⟨.length, fun _ => true⟩ := fun _ => rfl
  have ha' : originPlane.aperture = some ⟨.length, fun _ => true⟩ := rfl
  have ht : ∀ t, (openPlane t).transformation = some (Rigid.translation t) := fun _ => rfl
  have ht' : originPlane.transformation = none := rfl
  have hn : ∀ p, originPlane.sag.normal p = some ⟨0, 0, -1⟩ := fun _ => rfl
  have hr : stopRays checkingSolver ⟨3 / 5, 0⟩ 1 [originPlane, openPlane ⟨0, 0, 1⟩] 0 1 ⟨0, 0⟩
      ⟨3 / 4, 0⟩ none = some r2 := by
    unfold stopRays stopRaysFound stopRaysOnlyFound
    simp only [List.getElem?_cons_zero, List.getElem?_cons_succ, Option.bind_eq_bind,
      Option.bind_some, ha, ha', List.take_succ_cons, List.take_zero, List.drop_succ_cons,
      List.drop_zero, checkingSolver, herr, if_true, hstop, List.reverse_singleton,
      propagateSurfaces_cons, propagateSurfaces_nil, h2, ht, ht', List.head?_cons, Option.elim_some,
      Option.elim_none, hn, Option.pure_def, Nat.zero_add, List.take_nil]
    have hneg : ¬(0 : ℝ) < r2.direction.dot ⟨0, 0, -1⟩ := by rw [e2]; simp [dot]; norm_num
    rw [if_neg hneg]
  obtain ⟨g, g1, -, r', g3, -, g5⟩ := C69_reproduce_partial originSystem checkingSolver ⟨3 / 5, 0⟩ 1
    originPlane [] (openPlane ⟨0, 0, 1⟩) [] ⟨0, 0⟩ ⟨3 / 4, 0⟩ r2 (System.all_eq _) originPlane_fold
    rfl rfl rfl (by simpa using openPlane_blind ⟨0, 0, 1⟩) hr
  exact ⟨r2, g, r', hr, g1, g3, g5⟩

/-! ## Normalized coordinates -/

theorem coord_min_le (f : V2 → ℝ) (l : List V2) (a : ℝ) :
    l.foldl (fun m c => min m (f c)) a ≤ a ∧ ∀ c ∈ l, l.foldl (fun m c => min m (f c)) a ≤ f c := by
  induction l generalizing a with
  | nil => simp
  | cons x l ih =>
    obtain ⟨h1, h2⟩ := ih (min a (f x))
    refine ⟨h1.trans (min_le_left _ _), ?_⟩
    intro c hc
    rcases List.mem_cons.1 hc with rfl | hc
    · exact h1.trans (min_le_right _ _)
    · exact h2 c hc

theorem le_coord_max (f : V2 → ℝ) (l : List V2) (a : ℝ) :
    a ≤ l.foldl (fun m c => max m (f c)) a ∧ ∀ c ∈ l, f c ≤ l.foldl (fun m c => max m (f c)) a := by
  induction l generalizing a with
  | nil => simp
  | cons x l ih =>
    obtain ⟨h1, h2⟩ := ih (max a (f x))
    refine ⟨(le_max_left _ _).trans h1, ?_⟩
    intro c hc
    rcases List.mem_cons.1 hc with rfl | hc
    · exact (le_max_right _ _).trans h1
    · exact h2 c hc

theorem coord_min_mem (f : V2 → ℝ) (l : List V2) (a : ℝ) :
    l.foldl (fun m c => min m (f c)) a = a ∨ ∃ c ∈ l, l.foldl (fun m c => min m (f c)) a = f c := by
  induction l generalizing a with
  | nil => simp
  | cons x l ih =>
    rcases ih (min a (f x)) with h | ⟨c, hc, h⟩
    · rcases min_choice a (f x) with h' | h'
      · left; simp only [List.foldl_cons]; rw [h, h']
      · right; exact ⟨x, by simp, by simp only [List.foldl_cons]; rw [h, h']⟩
    · right; exact ⟨c, by simp [hc], h⟩

theorem coord_max_mem (f : V2 → ℝ) (l : List V2) (a : ℝ) :
    l.foldl (fun m c => max m (f c)) a = a ∨ ∃ c ∈ l, l.foldl (fun m c => max m (f c)) a = f c := by
  induction l generalizing a with
  | nil => simp
  | cons x l ih =>
    rcases ih (max a (f x)) with h | ⟨c, hc, h⟩
    · rcases max_choice a (f x) with h' | h'
      · left; simp only [List.foldl_cons]; rw [h, h']
      · right; exact ⟨x, by simp, by simp only [List.foldl_cons]; rw [h, h']⟩
    · right; exact ⟨c, by simp [hc], h⟩

theorem normalize_exists {lo hi x : ℝ} (h1 : lo ≤ x) (h2 : x ≤ hi) :
    ∃ v : ℝ, |v| ≤ 1 ∧ (hi - lo) * (v + 1) / 2 + lo = x := by
  rcases eq_or_lt_of_le (h1.trans h2) with h | h
  · exact ⟨0, by simp, by rw [← h]; have : x = lo := le_antisymm (by rw [h]; exact h2) h1
                          rw [this]; ring⟩
  · have hd : 0 < hi - lo := by linarith
    refine ⟨2 * (x - lo) / (hi - lo) - 1, ?_, by field_simp; ring⟩
    rw [abs_le]
    constructor
    · have : 0 ≤ 2 * (x - lo) / (hi - lo) := div_nonneg (by linarith) hd.le
      linarith
    · have : 2 * (x - lo) / (hi - lo) ≤ 2 := by rw [div_le_iff₀ hd]; linarith
      linarith

/-- **C69**: the field of view and the entrance pupil are the smallest intervals that contain all the
rays of the stops: every coordinate is inside, and every bound is attained. -/
theorem C69_extent (c0 : V2) (cs : List V2) :
    (∀ c ∈ c0 :: cs, (stopExtent c0 cs).lo.x ≤ c.x ∧ c.x ≤ (stopExtent c0 cs).hi.x ∧
      (stopExtent c0 cs).lo.y ≤ c.y ∧ c.y ≤ (stopExtent c0 cs).hi.y) ∧
    (∃ c ∈ c0 :: cs, (stopExtent c0 cs).lo.x = c.x) ∧ (∃ c ∈ c0 :: cs, (stopExtent c0 cs).hi.x = c.x) ∧
    (∃ c ∈ c0 :: cs, (stopExtent c0 cs).lo.y = c.y) ∧ ∃ c ∈ c0 :: cs, (stopExtent c0 cs).hi.y = c.y := by
  have attained : ∀ {f : V2 → ℝ} {m : ℝ}, m = f c0 ∨ (∃ c ∈ cs, m = f c) → ∃ c ∈ c0 :: cs, m = f c := by
    rintro f m (h | ⟨c, hc, h⟩)
    · exact ⟨c0, by simp, h⟩
    · exact ⟨c, by simp [hc], h⟩
  refine ⟨?_, attained (f := fun c => c.x) (coord_min_mem _ cs _),
    attained (f := fun c => c.x) (coord_max_mem _ cs _),
    attained (f := fun c => c.y) (coord_min_mem _ cs _),
    attained (f := fun c => c.y) (coord_max_mem _ cs _)⟩
  intro c hc
  rcases List.mem_cons.1 hc with rfl | hc
  · exact ⟨(coord_min_le (fun c : V2 => c.x) cs _).1, (le_coord_max (fun c : V2 => c.x) cs _).1,
      (coord_min_le (fun c : V2 => c.y) cs _).1, (le_coord_max (fun c : V2 => c.y) cs _).1⟩
  · exact ⟨(coord_min_le (fun c : V2 => c.x) cs _).2 c hc, (le_coord_max (fun c : V2 => c.x) cs _).2 c hc,
      (coord_min_le (fun c : V2 => c.y) cs _).2 c hc, (le_coord_max (fun c : V2 => c.y) cs _).2 c hc⟩

/-- **C69**: every ray of the stops is the input ray of some normalized field and pupil coordinates
between `-1` and `1`. -/
theorem C69_normalized (s : System) (w : ℝ) (g0 : Grid) (gs : List Grid)
    (hw : ∀ g ∈ g0 :: gs, g.wavelength = w)
    (hext : s.extents w = some (stopExtent g0.field (gs.map (·.field)),
      stopExtent g0.pupil (gs.map (·.pupil)))) :
    ∀ g ∈ g0 :: gs, ∃ field pupil : V2, |field.x| ≤ 1 ∧ |field.y| ≤ 1 ∧ |pupil.x| ≤ 1 ∧
      |pupil.y| ≤ 1 ∧
      s.calcInput ⟨w, field, pupil⟩ true true = s.calcInput g false false := by
  intro g hg
  have hf := (C69_extent g0.field (gs.map (·.field))).1 g.field (by
    rcases List.mem_cons.1 hg with rfl | h
    · simp
    · exact List.mem_cons_of_mem _ (List.mem_map_of_mem h))
  have hp := (C69_extent g0.pupil (gs.map (·.pupil))).1 g.pupil (by
    rcases List.mem_cons.1 hg with rfl | h
    · simp
    · exact List.mem_cons_of_mem _ (List.mem_map_of_mem h))
  obtain ⟨a, ha, ha'⟩ := normalize_exists hf.1 hf.2.1
  obtain ⟨b, hb, hb'⟩ := normalize_exists hf.2.2.1 hf.2.2.2
  obtain ⟨c, hc, hc'⟩ := normalize_exists hp.1 hp.2.1
  obtain ⟨d, hd, hd'⟩ := normalize_exists hp.2.2.1 hp.2.2.2
  refine ⟨⟨a, b⟩, ⟨c, d⟩, ha, hb, hc, hd, ?_⟩
  have hwg := hw g hg
  obtain ⟨gw, gf, gp⟩ := g
  simp only at hwg ha' hb' hc' hd'
  subst hwg
  unfold System.calcInput
  have e1 : denormalizeGrid s.extents ⟨gw, ⟨a, b⟩, ⟨c, d⟩⟩ true true = some ⟨gw, gf, gp⟩ := by
    simp only [denormalizeGrid, hext, Extent.denormalize, ha', hb', hc', hd', Bool.not_true,
      Bool.and_self, Bool.false_eq_true, if_false, if_true, Option.map_some]
  have e2 : denormalizeGrid s.extents ⟨gw, gf, gp⟩ false false = some ⟨gw, gf, gp⟩ := by
    simp [denormalizeGrid]
  rw [e1, e2]

/-- Two points that are not the corners of their extent. -/
example : stopExtent ⟨0, 1⟩ [⟨2, -3⟩] = ⟨⟨0, -3⟩, ⟨2, 1⟩⟩ := by
  simp only [stopExtent, List.foldl_cons, List.foldl_nil]
  norm_num

/-! ## Moved objects and systems -/

/-- Two open planes, of which the first is the object. -/
noncomputable def twoPlanes (t t' : V3) (T : Option Rigid) : System :=
  ⟨⟨openPlane t, true, false⟩, [], ⟨openPlane t', false, true⟩, ⟨1, ⟨0, 0⟩, ⟨0, 0⟩⟩, false,
    fun _ => none, T⟩

/-- **C69** fails for an object that is moved sideways: the rays of the stops are those of the moved
object, but the position of the ray is taken as a position relative to the object, and is moved
again. -/
theorem C69_moved_object_counterexample :
    let s := twoPlanes ⟨1, 0, 0⟩ ⟨1, 0, 1⟩ none
    ∃ r g r', stopRays checkingSolver ⟨0, 0⟩ 1 [openPlane ⟨1, 0, 0⟩, openPlane ⟨1, 0, 1⟩] 0 1 ⟨0, 0⟩ ⟨0, 0⟩
        s.transformation = some r ∧
      Strikes [openPlane ⟨1, 0, 0⟩, openPlane ⟨1, 0, 1⟩] 0 ⟨0, 0⟩ r ∧
      stopCoordinates s.objectAtInfinity r = some g ∧ s.calcInput g false false = some r' ∧
      Strikes [openPlane ⟨1, 0, 0⟩, openPlane ⟨1, 0, 1⟩] 0 ⟨1, 0⟩ r' ∧
      ¬Strikes [openPlane ⟨1, 0, 0⟩, openPlane ⟨1, 0, 1⟩] 0 ⟨0, 0⟩ r' := by
  intro s
  have hstop := stopRay_axis 1 (openPlane ⟨1, 0, 0⟩) ⟨1, 0, 0⟩ rfl rfl
  obtain ⟨b1, h1⟩ := openPlane_propagate ⟨1, 0, 1⟩ (free001 1 ⟨1, 0, 0⟩ true) (by norm_num)
  obtain ⟨b2, h2⟩ := openPlane_propagate ⟨1, 0, 0⟩ (free001 1 ⟨1, 0, 0⟩ true) (by norm_num)
  have hp : (⟨1, 0, 0⟩ : V3) + ((0 - 0) / (1 : ℝ)) • (⟨0, 0, 1⟩ : V3) = ⟨1, 0, 0⟩ := by
    apply V3.ext <;> simp
  simp only [hp] at h2
  have herr : rayError 1 (openPlane ⟨1, 0, 0⟩) .length ⟨0, 0⟩ [openPlane ⟨1, 0, 1⟩]
      (openPlane ⟨1, 0, 1⟩) .length ⟨0, 0⟩ ⟨0, 0⟩ = some ⟨0, 0⟩ := by
    simp only [rayError, hstop, Option.bind_eq_bind, Option.bind_some, propagateSurfaces_cons,
      propagateSurfaces_nil, h1, Option.pure_def]
    simp only [openPlane, Option.elim_some, Ray.unmove, stopComponent, Option.bind_some,
      translation_ipoint, Option.some.injEq, V2.mk.injEq]
    constructor <;> simp
  have ha : ∀ t, (openPlane t).aperture = some ⟨.length, fun _ => true⟩ := fun _ => rfl
  have ht : ∀ t, (openPlane t).transformation = some (Rigid.translation t) := fun _ => rfl
  have hn : ∀ t p, (openPlane t).sag.normal p = some ⟨0, 0, -1⟩ := fun _ _ => rfl
  have hr : stopRays checkingSolver ⟨0, 0⟩ 1 [openPlane ⟨1, 0, 0⟩, openPlane ⟨1, 0, 1⟩] 0 1 ⟨0, 0⟩
      ⟨0, 0⟩ none = some ⟨1, ⟨1, 0, 0⟩, ⟨0, 0, 1⟩, 1, 0, 1, b2⟩ := by
    unfold stopRays stopRaysFound stopRaysOnlyFound
    simp only [List.getElem?_cons_zero, List.getElem?_cons_succ, Option.bind_eq_bind,
      Option.bind_some, ha, List.take_succ_cons, List.take_zero, List.drop_succ_cons,
      List.drop_zero, checkingSolver, herr, if_true, hstop, List.reverse_cons, List.reverse_nil,
      List.nil_append, propagateSurfaces_cons, propagateSurfaces_nil, h2, ht,
      List.head?_cons, Option.elim_some, Ray.unmove, translation_ivec, hn, Option.pure_def,
      Option.elim_none, List.take_nil, Nat.zero_add]
    have hneg : ¬(0 : ℝ) < (⟨0, 0, 1⟩ : V3).dot ⟨0, 0, -1⟩ := by simp [dot]
    rw [if_neg hneg]
  have hang : anglesOf ⟨0, 0, 1⟩ = some ⟨0, 0⟩ := by
    have : ({ re := 1, im := 0 } : ℂ).arg = 0 := by
      have h : ({ re := 1, im := 0 } : ℂ) = 1 := by apply Complex.ext <;> simp
      rw [h, Complex.arg_one]
    simp [anglesOf, len, dot, arctan2, div?, this]
  have hfr : (openPlane ⟨1, 0, 0⟩).frame = Rigid.translation ⟨1, 0, 0⟩ := rfl
  obtain ⟨b3, h3⟩ := openPlane_propagate ⟨1, 0, 0⟩ (free001 1 ⟨1, 0, 0⟩ b2) (by norm_num)
  obtain ⟨b4, h4⟩ := openPlane_propagate ⟨1, 0, 0⟩ (free001 1 ⟨2, 0, 0⟩ true) (by norm_num)
  refine ⟨_, ⟨1, ⟨1, 0⟩, ⟨0, 0⟩⟩, ⟨1, ⟨2, 0, 0⟩, ⟨0, 0, 1⟩, 1, 0, 1, true⟩, hr, ?_, ?_, ?_, ?_, ?_⟩
  · refine ⟨_, _, ⟨1, (⟨1, 0, 0⟩ : V3) + ((0 - 0) / (1 : ℝ)) • (⟨0, 0, 1⟩ : V3), ⟨0, 0, 1⟩, 1, 0, 1, b3⟩,
      rfl, rfl, ?_, ?_⟩
    · simp only [List.take_succ_cons, List.take_zero, zero_add, propagateSurfaces_cons,
        propagateSurfaces_nil]
      rw [h3]; rfl
    · simp only [hfr, translation_ipoint]
      constructor <;> simp
  · simp [stopCoordinates, hang, s, twoPlanes]
  · have hdir : directionOf ⟨0, 0⟩ = ⟨0, 0, 1⟩ := by simp [directionOf]
    simp only [System.calcInput, denormalizeGrid, s, twoPlanes, hdir, ht, Bool.not_false,
      Bool.and_self, if_true, Option.map_some, Option.elim_some, Ray.move, translation_point,
      translation_vec, Bool.false_eq_true, if_false, Option.some.injEq, Ray.mk.injEq, and_true,
      true_and]
    apply V3.ext <;> simp; norm_num
  · refine ⟨_, _, ⟨1, (⟨2, 0, 0⟩ : V3) + ((0 - 0) / (1 : ℝ)) • (⟨0, 0, 1⟩ : V3), ⟨0, 0, 1⟩, 1, 0, 1, b4⟩,
      rfl, rfl, ?_, ?_⟩
    · simp only [List.take_succ_cons, List.take_zero, zero_add, propagateSurfaces_cons,
        propagateSurfaces_nil]
      rw [h4]; rfl
    · simp only [hfr, translation_ipoint]
      constructor <;> simp; norm_num
  · rintro ⟨x, ap, out, g1, g2, g3, g4⟩
    simp only [List.getElem?_cons_zero, Option.some.injEq] at g1
    subst g1
    rw [ha] at g2
    simp only [Option.some.injEq] at g2
    subst g2
    simp only [List.take_succ_cons, List.take_zero, zero_add, propagateSurfaces_cons,
        propagateSurfaces_nil] at g3
    rw [h4] at g3
    simp only [Option.bind_some, propagateSurfaces_nil, Option.some.injEq] at g3
    subst g3
    simp only [hfr, translation_ipoint] at g4
    norm_num at g4

/-- **C69** fails for a system that is moved along its axis: the rays of the stops are moved with the
system, whereas the positions of the input rays are relative to an object that is not moved. -/
theorem C69_moved_system_counterexample :
    let s := twoPlanes 0 ⟨0, 0, 1⟩ (some (Rigid.translation ⟨0, 0, 1⟩))
    ∃ r g r', stopRays checkingSolver ⟨3 / 5, 0⟩ 1 [openPlane 0, openPlane ⟨0, 0, 1⟩] 0 1 ⟨0, 0⟩
        ⟨3 / 4, 0⟩ s.transformation = some r ∧
      Strikes [openPlane 0, openPlane ⟨0, 0, 1⟩] 0 ⟨0, 0⟩ (r.unmove (Rigid.translation ⟨0, 0, 1⟩)) ∧
      stopCoordinates s.objectAtInfinity r = some g ∧ s.calcInput g false false = some r' ∧
      Strikes [openPlane 0, openPlane ⟨0, 0, 1⟩] 0 ⟨3 / 4, 0⟩
        (r'.unmove (Rigid.translation ⟨0, 0, 1⟩)) ∧
      ¬Strikes [openPlane 0, openPlane ⟨0, 0, 1⟩] 0 ⟨0, 0⟩
        (r'.unmove (Rigid.translation ⟨0, 0, 1⟩)) := by
  intro s
  obtain ⟨b, hb⟩ := openPlanes_stopRays (some (Rigid.translation ⟨0, 0, 1⟩))
  simp only [Option.elim_some] at hb
  have hd35 : (⟨3 / 5, 0, 4 / 5⟩ : V3).dot ⟨3 / 5, 0, 4 / 5⟩ = 1 := by simp [dot]; norm_num
  have hlen : (⟨3 / 5, 0, 4 / 5⟩ : V3).len = 1 := by unfold len; rw [hd35, Real.sqrt_one]
  have hne : (⟨3 / 5, 0, 4 / 5⟩ : V3) ≠ 0 := by
    intro h; have := congrArg V3.z h; norm_num at this
  obtain ⟨a, ha, hdir⟩ := C21_direction_angles ⟨3 / 5, 0, 4 / 5⟩ hne
  rw [hlen, one_div_one, V3.one_smul] at hdir
  have hap : ∀ t, (openPlane t).aperture = some ⟨.length, fun _ => true⟩ := fun _ => rfl
  have hfr : (openPlane 0).frame = Rigid.translation 0 := rfl
  obtain ⟨b1, h1⟩ := openPlane_propagate 0 (free35 1 0 b) (by norm_num)
  obtain ⟨b2, h2⟩ := openPlane_propagate 0 (free35 1 ⟨0, 0, -1⟩ true) (by norm_num)
  have hun : (⟨1, 0, ⟨3 / 5, 0, 4 / 5⟩, 1, 0, 1, true⟩ : Ray).unmove (Rigid.translation ⟨0, 0, 1⟩) =
      ⟨1, ⟨0, 0, -1⟩, ⟨3 / 5, 0, 4 / 5⟩, 1, 0, 1, true⟩ := by
    simp only [Ray.unmove, translation_ipoint, translation_ivec, Ray.mk.injEq, and_true, true_and]
    apply V3.ext <;> simp
  refine ⟨_, ⟨1, ⟨0, 0⟩, a⟩, ⟨1, 0, ⟨3 / 5, 0, 4 / 5⟩, 1, 0, 1, true⟩, hb, ?_, ?_, ?_, ?_, ?_⟩
  · rw [Ray.unmove_move]
    refine ⟨_, _, ⟨1, (0 : V3) + (((0 : V3).z - (0 : V3).z) / (4 / 5 : ℝ)) • (⟨3 / 5, 0, 4 / 5⟩ : V3),
      ⟨3 / 5, 0, 4 / 5⟩, 1, 0, 1, b1⟩, rfl, rfl, ?_, ?_⟩
    · simp only [List.take_succ_cons, List.take_zero, zero_add, propagateSurfaces_cons,
        propagateSurfaces_nil]
      rw [h1]; rfl
    · simp only [hfr, translation_ipoint]
      constructor <;> simp
  · simp [stopCoordinates, Ray.move, translation_vec, translation_point, ha, s, twoPlanes]
  · have ht : (openPlane 0).transformation = some (Rigid.translation 0) := rfl
    simp only [System.calcInput, denormalizeGrid, s, twoPlanes, hdir, ht, Bool.not_false,
      Bool.and_self, if_true, Option.map_some, Option.elim_some, Ray.move, translation_point,
      translation_vec, Bool.false_eq_true, if_false, Option.some.injEq, Ray.mk.injEq, and_true,
      true_and]
    apply V3.ext <;> simp
  · rw [hun]
    refine ⟨_, _, ⟨1, (⟨0, 0, -1⟩ : V3) + (((0 : V3).z - -1) / (4 / 5 : ℝ)) • (⟨3 / 5, 0, 4 / 5⟩ : V3),
      ⟨3 / 5, 0, 4 / 5⟩, 1, 0, 1, b2⟩, rfl, rfl, ?_, ?_⟩
    · simp only [List.take_succ_cons, List.take_zero, zero_add, propagateSurfaces_cons,
        propagateSurfaces_nil]
      rw [h2]; rfl
    · simp only [hfr, translation_ipoint]
      constructor <;> simp
  · rw [hun]
    rintro ⟨x, ap, out, g1, g2, g3, g4⟩
    simp only [List.getElem?_cons_zero, Option.some.injEq] at g1
    subst g1
    rw [hap] at g2
    simp only [Option.some.injEq] at g2
    subst g2
    simp only [List.take_succ_cons, List.take_zero, zero_add, propagateSurfaces_cons,
        propagateSurfaces_nil] at g3
    rw [h2] at g3
    simp only [Option.bind_some, propagateSurfaces_nil, Option.some.injEq] at g3
    subst g3
    simp only [hfr, translation_ipoint] at g4
    norm_num at g4

end Optika
