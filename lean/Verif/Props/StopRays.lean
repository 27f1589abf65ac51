import Verif.Lemmas.StopRays

/-!
# C68: the rays of the stops strike the borders of both stops
-/

namespace Optika
open V3

/-- The ray, sent through the surfaces up to the surface with index `k`, arrives there with the given
coordinates: those of its position if the aperture has a length, those of its direction if the
aperture is dimensionless, both in the coordinate system of the surface. -/
def Strikes (all : List Surface) (k : ℕ) (grid : V2) (r : Ray) : Prop :=
  ∃ s ap out, all[k]? = some s ∧ s.aperture = some ap ∧
    propagateSurfaces (all.take (k + 1)) r = some out ∧
    match ap.unit with
    | .length => (s.frame.ipoint out.position).x = grid.x ∧ (s.frame.ipoint out.position).y = grid.y
    | .dimensionless =>
      (s.frame.ivec out.direction).x = grid.x ∧ (s.frame.ivec out.direction).y = grid.y
    | .other => False

theorem strikes_of_component {all : List Surface} {k : ℕ} {grid : V2} {r out : Ray} {s : Surface}
    {ap : Aperture} {c : V2} (h1 : all[k]? = some s) (h2 : s.aperture = some ap)
    (h3 : propagateSurfaces (all.take (k + 1)) r = some out)
    (h4 : stopComponent ap.unit (out.unmove s.frame) = some c) (h5 : c.x = grid.x)
    (h6 : c.y = grid.y) : Strikes all k grid r := by
  refine ⟨s, ap, out, h1, h2, h3, ?_⟩
  cases hu : ap.unit with
  | length =>
    rw [hu] at h4
    simp only [stopComponent, Option.some.injEq] at h4
    subst h4; exact ⟨h5, h6⟩
  | dimensionless =>
    rw [hu] at h4
    simp only [stopComponent, Option.some.injEq] at h4
    subst h4; exact ⟨h5, h6⟩
  | other => rw [hu] at h4; simp [stopComponent] at h4

theorem component_plain (u : ApertureUnit) (g : Rigid) {r r' : Ray} (h : r.plain = r'.plain) :
    stopComponent u (r.unmove g) = stopComponent u (r'.unmove g) := by
  have h1 : r.plain.position = r'.plain.position := congrArg Ray.position h
  have h2 : r.plain.direction = r'.plain.direction := congrArg Ray.direction h
  simp only [Ray.plain] at h1 h2
  unfold stopComponent Ray.unmove
  rw [h1, h2]

/-- **C68**: if the object is a plane and one of the stops, the rays of the stops start on the object,
point away from it to positive `z`, and strike the given points of the borders of both stops.
The surfaces after the object are arbitrary: lenses, gratings and mirrors of any shape.
(Partial: a spatial stop must not be turned, and for an angular stop that is moved the intercept with
the next surface must only depend on the line.) -/
theorem C68_object_partial (solver : RootFinder) (guess : V2) (w : ℝ) (obj : Surface)
    (mid : List Surface) (last : Surface) (post : List Surface) (gridFirst gridLast : V2)
    (T : Option Rigid) (r : Ray)
    (hobj : Fold obj) (hvac : obj.material = vacuum)
    (hblind : ∀ s ∈ mid ++ [last], FlagBlind s)
    (hap : ∀ ap, obj.aperture = some ap →
      (ap.unit = .length ∧ obj.frame.ivec ⟨0, 0, 1⟩ = ⟨0, 0, 1⟩) ∨
      (ap.unit = .dimensionless ∧ (obj.transformation = none ∨
        ∀ s, (mid ++ [last]).head? = some s → LineSag s.sag)))
    (h : stopRays solver guess w (obj :: (mid ++ last :: post)) 0 (mid.length + 1)
      gridFirst gridLast T = some r) :
    let start : Ray := T.elim r fun g => r.unmove g
    Strikes (obj :: (mid ++ last :: post)) 0 gridFirst start ∧
    Strikes (obj :: (mid ++ last :: post)) (mid.length + 1) gridLast start ∧
    (obj.frame.ipoint start.position).z = 0 ∧ 0 < (obj.frame.ivec start.direction).z ∧
    start.wavelength = w ∧ start.intensity = 1 ∧ Free start := by
  intro start
  have hidx : mid.length + 1 = ([] : List Surface).length + 1 + mid.length := by simp; omega
  rw [hidx] at h ⊢
  have hfold : ∀ s ∈ ([] : List Surface) ++ [obj], Fold s := by simpa using hobj
  obtain ⟨apf, apl, a, ρ, out, c, r3, r1, r0, h1, h2, h3, hfree, h4, h5, h6, h7, h8, h9, h10, h11,
    ⟨t, h12⟩, h13, h14, h15, σ, hσ, h16, h17, h18⟩ := stopRays_forward (init := []) hfold h
  have h15 : propagateSurfaces [obj] ρ = some r0 := h15
  rw [propagateSurfaces_cons] at h15
  obtain ⟨r0', hr0', e⟩ := Option.bind_eq_some_iff.1 h15
  simp only [propagateSurfaces_nil, Option.some.injEq] at e
  subst e
  have hr01 : r0' = r1 := by rw [h13] at hr0'; simpa using hr0'.symm
  subst hr01
  obtain ⟨hz, e1, e2, e3, e4, e5⟩ := fold_propagate hobj hfree h13
  have hturn : ∀ d, obj.turn d = d := by intro d; simp [Surface.turn, hvac, vacuum]
  rw [hturn, Rigid.vec_ivec] at e2
  -- the direction points to positive z
  have hpos : 0 < (obj.frame.ivec ρ.direction).z := by
    refine lt_of_le_of_ne ?_ (Ne.symm hz)
    rcases hap apf h1 with ⟨hu, hv⟩ | ⟨hu, -⟩
    · rw [hu] at h3
      obtain ⟨z, s, -, hs, hρ⟩ := stopRay_length h3
      have hdot := Rigid.ivec_dot_ivec obj.frame ⟨a.x, a.y, s⟩ ⟨0, 0, 1⟩
      rw [hv] at hdot
      rw [hρ]
      simp only [dot, mul_zero, mul_one, zero_add] at hdot ⊢
      rw [hdot]; exact (unit_of_sqrt hs).2
    · rw [hu] at h3
      obtain ⟨z, s, -, hs, hρ⟩ := stopRay_dimensionless h3
      rw [hρ]
      simp only [Rigid.ivec_vec]
      exact (unit_of_sqrt hs).2
  have hσ1 : σ = 1 := by
    refine h18 obj ⟨0, 0, -1⟩ (by simp) (by rw [hobj.sag]; rfl) ?_
    rw [e2]
    simp only [dot, mul_zero, zero_add]; linarith
  subst hσ1
  rw [V3.one_smul] at h16 h17
  have hstart : start = r0' := h17
  have hlen : (obj :: (mid ++ last :: post)).take (([] : List Surface).length + 1) = [] ++ [obj] :=
    arrange_take_first [] obj mid last post
  refine ⟨?_, ?_, ?_, ?_, ?_, ?_, ?_⟩
  · -- the first stop
    refine ⟨obj, apf, r3, rfl, h1, by simpa [start] using h8, ?_⟩
    rcases hap apf h1 with ⟨hu, hv⟩ | ⟨hu, -⟩
    · rw [hu] at h3 ⊢
      obtain ⟨z, s, hz0, hs, hρ⟩ := stopRay_length h3
      have hz0' : z = 0 := by rw [hobj.sag] at hz0; simpa [flatSag, flatHeight] using hz0.symm
      simp only
      rw [h14, e1, Rigid.ipoint_point, hρ]
      simp only [Rigid.ipoint_point, planeHit, hz0']
      simp
    · rw [hu] at h3 ⊢
      obtain ⟨z, s, hz0, hs, hρ⟩ := stopRay_dimensionless h3
      simp only
      rw [h16, hρ]
      simp
  · -- the last stop
    have htake : (obj :: (mid ++ last :: post)).take
        (([] : List Surface).length + 1 + mid.length + 1) = [] ++ [obj] ++ (mid ++ [last]) :=
      arrange_take_last [] obj mid last post
    have hsame : (propagateSurfaces (mid ++ [last]) r3).map Ray.plain =
        (propagateSurfaces (mid ++ [last]) ρ).map Ray.plain := by
      rcases hap apf h1 with ⟨hu, hv⟩ | ⟨hu, hn⟩
      · rw [hu] at h3
        obtain ⟨z, s, hz0, hs, hρ⟩ := stopRay_length h3
        have hz0' : z = 0 := by rw [hobj.sag] at hz0; simpa [flatSag, flatHeight] using hz0.symm
        have hp : r3.position = ρ.position := by
          rw [h14, e1, hρ]
          simp only [Rigid.ipoint_point, planeHit, hz0', neg_zero, zero_div, V3.zero_smul,
            V3.add_zero]
        apply propagateSurfaces_plain hblind
        simp only [Ray.plain, Ray.mk.injEq, and_true]
        exact ⟨h10, hp, h16, h11, by rw [h9.attenuation, hfree.attenuation],
          by rw [h9.index, hfree.index]⟩
      · rcases hn with hn | hn
        · rw [hu] at h3
          obtain ⟨z, s, hz0, hs, hρ⟩ := stopRay_dimensionless h3
          have hz0' : z = 0 := by rw [hobj.sag] at hz0; simpa [flatSag, flatHeight] using hz0.symm
          have hframe : obj.frame = Rigid.id := by simp [Surface.frame, hn]
          have hp : r3.position = ρ.position := by
            rw [h14, e1, hframe, Rigid.id_point, Rigid.id_ipoint, Rigid.id_ivec, hρ]
            simp only [planeHit, hz0', neg_zero, zero_div, V3.zero_smul, V3.add_zero]
          apply propagateSurfaces_plain hblind
          simp only [Ray.plain, Ray.mk.injEq, and_true]
          exact ⟨h10, hp, h16, h11, by rw [h9.attenuation, hfree.attenuation],
            by rw [h9.index, hfree.index]⟩
        · have hρ3 : r3.plain = ({ ρ with position := ρ.position + t • ρ.direction } : Ray).plain := by
            simp only [Ray.plain, Ray.mk.injEq, and_true]
            exact ⟨h10, h12, h16, h11, by rw [h9.attenuation, hfree.attenuation],
              by rw [h9.index, hfree.index]⟩
          rw [propagateSurfaces_plain hblind hρ3]
          cases hm : mid ++ [last] with
          | nil => simp at hm
          | cons s ss =>
            rw [propagateSurfaces_cons, propagateSurfaces_cons,
              propagate_shift (hn s (by rw [hm]; rfl)) hfree.attenuation hfree.unit]
    rw [h4] at hsame
    simp only [Option.map_some, Option.map_eq_some_iff] at hsame
    obtain ⟨out', hout', hplain⟩ := hsame
    refine strikes_of_component (s := last) (out := out') (c := c)
      (arrange_last [] obj mid last post) h2 ?_ ?_ h6 h7
    · rw [htake, propagateSurfaces_append]
      have : propagateSurfaces ([] ++ [obj]) start = some r3 := h8
      rw [this]; exact hout'
    · rw [component_plain _ _ hplain]; exact h5
  · rw [hstart, e1, Rigid.ipoint_point]; exact planeHit_z _ hz
  · rw [hstart, e2]; exact hpos
  · rw [hstart, e3]; exact (stopRay_free h3).2.1
  · rw [hstart, e4]; exact (stopRay_free h3).2.2
  · rw [hstart]; exact e5

/-- **C68**: the same if there are flat mirrors, and planes in vacuum, up to and including the first
stop, and any mirrors that light can pass in either sense up to the last stop, for stops with a spatial
aperture.
(Partial: no gratings, no refraction, no curved mirrors before the first stop; see the
counterexamples.) -/
theorem C68_folded_partial (solver : RootFinder) (guess : V2) (w : ℝ) (init : List Surface)
    (first : Surface) (mid : List Surface) (last : Surface) (post : List Surface)
    (gridFirst gridLast : V2) (T : Option Rigid) (r : Ray)
    (hfold : ∀ s ∈ init ++ [first], Fold s)
    (hrev : ∀ s ∈ mid ++ [last], Reversible s) (hblind : ∀ s ∈ mid ++ [last], FlagBlind s)
    (hap : ∀ s, s = first ∨ s = last → ∀ ap, s.aperture = some ap → ap.unit = .length)
    (h : stopRays solver guess w (init ++ first :: (mid ++ last :: post)) init.length
      (init.length + 1 + mid.length) gridFirst gridLast T = some r) :
    let start : Ray := T.elim r fun g => r.unmove g
    Strikes (init ++ first :: (mid ++ last :: post)) init.length gridFirst start ∧
    Strikes (init ++ first :: (mid ++ last :: post)) (init.length + 1 + mid.length) gridLast start := by
  intro start
  obtain ⟨apf, apl, a, ρ, out, c, r3, r1, r0, h1, h2, h3, hfree, h4, h5, h6, h7, h8, h9, h10, h11,
    -, h13, h14, h15, σ, hσ, h16, h17, h18⟩ := stopRays_forward hfold h
  have hf : Fold first := hfold first (by simp)
  obtain ⟨hz, e1, e2, e3, e4, e5⟩ := fold_propagate hf hfree h13
  have hu := hap first (Or.inl rfl) apf h1
  have hul := hap last (Or.inr rfl) apl h2
  rw [hu] at h3
  obtain ⟨z, s, hz0, hs, hρ⟩ := stopRay_length h3
  have hz0' : z = 0 := by rw [hf.sag] at hz0; simpa [flatSag, flatHeight] using hz0.symm
  have hp : r3.position = ρ.position := by
    rw [h14, e1, hρ]
    simp only [Rigid.ipoint_point, planeHit, hz0', neg_zero, zero_div, V3.zero_smul, V3.add_zero]
  constructor
  · refine ⟨first, apf, r3, arrange_first init first mid last post, h1, ?_, ?_⟩
    · have := arrange_take_first init first mid last post
      unfold arrange at this
      rw [this]; exact h8
    · rw [hu]
      simp only
      rw [hp, hρ]
      simp
  · have htake := arrange_take_last init first mid last post
    unfold arrange at htake
    have key : ∃ out', propagateSurfaces (mid ++ [last]) r3 = some out' ∧
        out'.position = out.position := by
      rcases hσ with rfl | rfl
      · have hsame := propagateSurfaces_plain hblind (r := r3) (r' := ρ) (by
          simp only [Ray.plain, Ray.mk.injEq, and_true]
          exact ⟨h10, hp, by rw [h16, V3.one_smul], h11, by rw [h9.attenuation, hfree.attenuation],
            by rw [h9.index, hfree.index]⟩)
        rw [h4] at hsame
        simp only [Option.map_some, Option.map_eq_some_iff] at hsame
        obtain ⟨out', hout', hplain⟩ := hsame
        have hpp : out'.plain.position = out.plain.position := congrArg Ray.position hplain
        exact ⟨out', hout', hpp⟩
      · have hsame := propagateSurfaces_plain hblind (r := r3) (r' := ρ.flip) (by
          simp only [Ray.plain, Ray.flip, Ray.mk.injEq, and_true]
          exact ⟨h10, hp, by rw [h16, V3.neg_one_smul], h11,
            by rw [h9.attenuation, hfree.attenuation], by rw [h9.index, hfree.index]⟩)
        rw [propagateSurfaces_flip hrev hblind hfree.index hfree.unit, h4] at hsame
        simp only [Option.map_some, Option.map_eq_some_iff] at hsame
        obtain ⟨out', hout', hplain⟩ := hsame
        have hpp : out'.plain.position = out.flip.position := congrArg Ray.position hplain
        exact ⟨out', hout', hpp⟩
    obtain ⟨out', hout', hpos⟩ := key
    refine strikes_of_component (s := last) (out := out') (c := c)
      (arrange_last init first mid last post) h2 ?_ ?_ h6 h7
    · rw [htake, propagateSurfaces_append]
      have : propagateSurfaces (init ++ [first]) start = some r3 := h8
      rw [this]; exact hout'
    · rw [hul] at h5 ⊢
      simp only [stopComponent, Ray.unmove] at h5 ⊢
      rw [hpos]; exact h5

/-! ## Examples and counterexamples -/

open scoped Classical in
/-- An iteration that stops at once if it starts at a root. -/
noncomputable def checkingSolver : RootFinder where
  find f guess := if f guess = some ⟨0, 0⟩ then some guess else none
  root f guess a h := by
    split at h
    · rename_i hf; simp only [Option.some.injEq] at h; subst h; exact hf
    · exact absurd h (by simp)

/-- A plane with an open spatial aperture, moved by `t`. -/
noncomputable def openPlane (t : V3) : Surface :=
  ⟨flatSag, vacuum, some ⟨.length, fun _ => true⟩, none, some (Rigid.translation t)⟩

theorem translation_point (t v : V3) : (Rigid.translation t).point v = v + t := by
  apply V3.ext <;> simp [Rigid.point, Rigid.translation, Rigid.id, M3.one, M3.mulVec, dot]
theorem translation_vec (t v : V3) : (Rigid.translation t).vec v = v := by
  apply V3.ext <;> simp [Rigid.vec, Rigid.translation, Rigid.id, M3.one, M3.mulVec, dot]
theorem translation_ipoint (t v : V3) : (Rigid.translation t).ipoint v = v - t := by
  apply V3.ext <;>
    simp [Rigid.ipoint, Rigid.translation, Rigid.id, M3.one, M3.mulVec, M3.transpose, dot]
theorem translation_ivec (t v : V3) : (Rigid.translation t).ivec v = v := by
  apply V3.ext <;>
    simp [Rigid.ivec, Rigid.translation, Rigid.id, M3.one, M3.mulVec, M3.transpose, dot]

theorem openPlane_fold (t : V3) : Fold (openPlane t) :=
  ⟨rfl, rfl, Or.inl rfl, by intro a ha; simp only [openPlane, Option.some.injEq] at ha; subst ha; simp⟩

theorem openPlane_blind (t : V3) : FlagBlind (openPlane t) :=
  ⟨fun _ => rfl, fun _ => rfl, fun _ _ => rfl, by intro ru h; simp [openPlane] at h⟩

theorem openPlane_propagate (t : V3) {r : Ray} (hr : Free r) (hz : r.direction.z ≠ 0) :
    ∃ b, (openPlane t).propagate r = some { r with
      position := r.position + ((t.z - r.position.z) / r.direction.z) • r.direction
      unvignetted := b } := by
  have hf : (openPlane t).frame = Rigid.translation t := rfl
  obtain ⟨out, hout⟩ := fold_defined (openPlane_fold t) hr (by rw [hf, translation_ivec]; exact hz)
  obtain ⟨-, e1, e2, e3, e4, e5⟩ := fold_propagate (openPlane_fold t) hr hout
  refine ⟨out.unvignetted, ?_⟩
  rw [hout]
  have hturn : ∀ d, (openPlane t).turn d = d := fun d => by simp [Surface.turn, openPlane, vacuum]
  rw [hturn, Rigid.vec_ivec] at e2
  rw [hf, translation_point, translation_ipoint, translation_ivec] at e1
  cases out
  simp only [Option.some.injEq, Ray.mk.injEq, and_true] at *
  refine ⟨e3, ?_, e2, e4, by rw [hr.attenuation]; exact e5.attenuation,
    by rw [hr.index]; exact e5.index⟩
  rw [e1]
  unfold planeHit
  apply V3.ext <;> simp <;> ring

theorem free35 (w : ℝ) (p : V3) (b : Bool) : Free ⟨w, p, ⟨3 / 5, 0, 4 / 5⟩, 1, 0, 1, b⟩ :=
  ⟨rfl, rfl, by simp [dot]; norm_num⟩

theorem sqrt45 : sqrt? (1 - ((3 / 5 : ℝ) ^ 2 + 0 ^ 2)) = some (4 / 5) := by
  have h : (1 - ((3 / 5 : ℝ) ^ 2 + 0 ^ 2)) = (4 / 5) ^ 2 := by norm_num
  rw [h, sqrt?_of_nonneg (by positivity), Real.sqrt_sq (by norm_num)]

/-- The rays of two planes, which start at the centre of the first and strike the second, at a distance
of one, at `x = 3 / 4`. -/
theorem openPlanes_stopRays (T : Option Rigid) :
    ∃ b, stopRays checkingSolver ⟨3 / 5, 0⟩ 1 [openPlane 0, openPlane ⟨0, 0, 1⟩] 0 1 ⟨0, 0⟩ ⟨3 / 4, 0⟩ T
      = some (T.elim ⟨1, 0, ⟨3 / 5, 0, 4 / 5⟩, 1, 0, 1, b⟩ fun g =>
          (⟨1, 0, ⟨3 / 5, 0, 4 / 5⟩, 1, 0, 1, b⟩ : Ray).move g) := by
  have hstop : stopRay 1 (openPlane 0) .length ⟨0, 0⟩ ⟨3 / 5, 0⟩ =
      some ⟨1, 0, ⟨3 / 5, 0, 4 / 5⟩, 1, 0, 1, true⟩ := by
    simp only [stopRay, Option.bind_eq_bind]
    rw [sqrt45]
    simp only [openPlane, flatSag, flatHeight, Option.bind_some, Option.pure_def,
      Option.elim_some, translation_point, Option.some.injEq, Ray.mk.injEq, and_true, true_and]
    apply V3.ext <;> simp
  obtain ⟨b1, h1⟩ := openPlane_propagate ⟨0, 0, 1⟩ (free35 1 0 true) (by norm_num)
  obtain ⟨b2, h2⟩ := openPlane_propagate 0 (free35 1 0 true) (by norm_num)
  have herr : rayError 1 (openPlane 0) .length ⟨0, 0⟩ [openPlane ⟨0, 0, 1⟩] (openPlane ⟨0, 0, 1⟩)
      .length ⟨3 / 4, 0⟩ ⟨3 / 5, 0⟩ = some ⟨0, 0⟩ := by
    simp only [rayError, hstop, Option.bind_eq_bind, Option.bind_some, propagateSurfaces_cons,
      propagateSurfaces_nil, h1, Option.pure_def]
    simp only [openPlane, Option.elim_some, Ray.unmove, stopComponent, Option.bind_some,
      translation_ipoint, Option.some.injEq, V2.mk.injEq]
    constructor <;> simp
  refine ⟨b2, ?_⟩
  have ha : ∀ t, (openPlane t).aperture = some ⟨.length, fun _ => true⟩ := fun _ => rfl
  have ht : ∀ t, (openPlane t).transformation = some (Rigid.translation t) := fun _ => rfl
  have hn : ∀ t p, (openPlane t).sag.normal p = some ⟨0, 0, -1⟩ := fun _ _ => rfl
  unfold stopRays stopRaysFound stopRaysOnlyFound
  simp only [List.getElem?_cons_zero, List.getElem?_cons_succ, Option.bind_eq_bind, Option.bind_some,
    ha, List.take_succ_cons, List.take_zero, List.drop_succ_cons, List.drop_zero, checkingSolver, herr,
    if_true, hstop, List.reverse_singleton, propagateSurfaces_cons, propagateSurfaces_nil, h2, ht,
    List.head?_cons, Option.elim_some, Ray.unmove, translation_ivec, hn, Option.pure_def,
    Nat.zero_add, List.take_nil]
  have hneg : ¬(0 : ℝ) < (⟨3 / 5, 0, 4 / 5⟩ : V3).dot ⟨0, 0, -1⟩ := by simp [dot]; norm_num
  rw [if_neg hneg]
  have h0 : (0 : V3) + (((0 : V3).z - (0 : V3).z) / (4 / 5 : ℝ)) • (⟨3 / 5, 0, 4 / 5⟩ : V3) = 0 := by
    apply V3.ext <;> simp
  simp only [h0]

/-- The hypotheses of `C68_object_partial` and `C68_folded_partial` are met by two planes. -/
example : Strikes [openPlane 0, openPlane ⟨0, 0, 1⟩] 1 ⟨3 / 4, 0⟩
    ⟨1, 0, ⟨3 / 5, 0, 4 / 5⟩, 1, 0, 1, true⟩ ∨ Strikes [openPlane 0, openPlane ⟨0, 0, 1⟩] 1 ⟨3 / 4, 0⟩
    ⟨1, 0, ⟨3 / 5, 0, 4 / 5⟩, 1, 0, 1, false⟩ := by
  obtain ⟨b, hb⟩ := openPlanes_stopRays none
  have h := C68_object_partial checkingSolver ⟨3 / 5, 0⟩ 1 (openPlane 0) [] (openPlane ⟨0, 0, 1⟩) []
    ⟨0, 0⟩ ⟨3 / 4, 0⟩ none _ (openPlane_fold 0) rfl
    (by simpa using openPlane_blind ⟨0, 0, 1⟩)
    (by
      intro ap hap
      simp only [openPlane, Option.some.injEq] at hap
      subst hap
      exact Or.inl ⟨rfl, translation_ivec _ _⟩) hb
  cases b
  · exact Or.inr h.2.1
  · exact Or.inl h.2.1

theorem reversible_plane (t : V3) : Reversible (openPlane t) :=
  ⟨lineSag_flat, by
    intro q n h
    simp only [openPlane, flatSag, flatNormal, Option.some.injEq] at h
    subst h; simp [dot], rfl, fun _ _ => rfl, fun _ => rfl, fun _ _ => rfl⟩

/-- The same plane as a mirror. -/
noncomputable def openMirror (t : V3) : Surface := { openPlane t with material := mirror }

theorem openMirror_fold (t : V3) : Fold (openMirror t) :=
  ⟨rfl, rfl, Or.inr rfl, (openPlane_fold t).unit⟩

theorem openMirror_propagate (t : V3) {r : Ray} (hr : Free r) (hz : r.direction.z ≠ 0) :
    ∃ b, (openMirror t).propagate r = some { r with
      position := r.position + ((t.z - r.position.z) / r.direction.z) • r.direction
      direction := ⟨r.direction.x, r.direction.y, -r.direction.z⟩
      unvignetted := b } := by
  have hf : (openMirror t).frame = Rigid.translation t := rfl
  obtain ⟨out, hout⟩ := fold_defined (openMirror_fold t) hr (by rw [hf, translation_ivec]; exact hz)
  obtain ⟨-, e1, e2, e3, e4, e5⟩ := fold_propagate (openMirror_fold t) hr hout
  refine ⟨out.unvignetted, ?_⟩
  rw [hout]
  have hturn : ∀ d, (openMirror t).turn d = ⟨d.x, d.y, -d.z⟩ := fun d => by
    simp [Surface.turn, openMirror, mirror]
  rw [hf, hturn, translation_vec, translation_ivec] at e2
  rw [hf, translation_point, translation_ipoint, translation_ivec] at e1
  cases out
  simp only [Option.some.injEq, Ray.mk.injEq, and_true] at *
  refine ⟨e3, ?_, e2, e4, by rw [hr.attenuation]; exact e5.attenuation,
    by rw [hr.index]; exact e5.index⟩
  rw [e1]
  unfold planeHit
  apply V3.ext <;> simp <;> ring

theorem free001 (w : ℝ) (p : V3) (b : Bool) : Free ⟨w, p, ⟨0, 0, 1⟩, 1, 0, 1, b⟩ :=
  ⟨rfl, rfl, by simp [dot]⟩
theorem free00m (w : ℝ) (p : V3) (b : Bool) : Free ⟨w, p, ⟨0, 0, -1⟩, 1, 0, 1, b⟩ :=
  ⟨rfl, rfl, by simp [dot]⟩

theorem stopRay_axis (w : ℝ) (s : Surface) (t : V3) (hs : s.sag = flatSag)
    (ht : s.transformation = some (Rigid.translation t)) :
    stopRay w s .length ⟨0, 0⟩ ⟨0, 0⟩ = some ⟨w, t, ⟨0, 0, 1⟩, 1, 0, 1, true⟩ := by
  have h1 : sqrt? (1 - ((0 : ℝ) ^ 2 + 0 ^ 2)) = some 1 := by simp [sqrt?]
  simp only [stopRay, Option.bind_eq_bind, h1, hs, ht, flatSag, flatHeight, Option.bind_some,
    Option.pure_def, Option.elim_some, translation_point, Option.some.injEq, Ray.mk.injEq, and_true,
    true_and]
  apply V3.ext <;> simp

/-- Light from the plane `z = 0` that is reflected by a mirror at `z = 1`, the first stop, to the plane
`z = -1`, the last stop, meets the hypotheses of `C68_folded_partial`; the direction is turned around
to leave the object towards the mirror. -/
example : ∃ r, stopRays checkingSolver ⟨0, 0⟩ 1
      [openPlane 0, openMirror ⟨0, 0, 1⟩, openPlane ⟨0, 0, -1⟩] 1 2 ⟨0, 0⟩ ⟨0, 0⟩ none = some r ∧
    r.direction = ⟨0, 0, 1⟩ ∧
    Strikes [openPlane 0, openMirror ⟨0, 0, 1⟩, openPlane ⟨0, 0, -1⟩] 2 ⟨0, 0⟩ r := by
  have hstop := stopRay_axis 1 (openMirror ⟨0, 0, 1⟩) ⟨0, 0, 1⟩ rfl rfl
  obtain ⟨b1, h1⟩ := openPlane_propagate ⟨0, 0, -1⟩ (free001 1 ⟨0, 0, 1⟩ true) (by norm_num)
  obtain ⟨b2, h2⟩ := openMirror_propagate ⟨0, 0, 1⟩ (free001 1 ⟨0, 0, 1⟩ true) (by norm_num)
  have herr : rayError 1 (openMirror ⟨0, 0, 1⟩) .length ⟨0, 0⟩ [openPlane ⟨0, 0, -1⟩]
      (openPlane ⟨0, 0, -1⟩) .length ⟨0, 0⟩ ⟨0, 0⟩ = some ⟨0, 0⟩ := by
    simp only [rayError, hstop, Option.bind_eq_bind, Option.bind_some, propagateSurfaces_cons,
      propagateSurfaces_nil, h1, Option.pure_def]
    simp only [openPlane, Option.elim_some, Ray.unmove, stopComponent, Option.bind_some,
      translation_ipoint, Option.some.injEq, V2.mk.injEq]
    constructor <;> simp
  have hp : (⟨0, 0, 1⟩ : V3) + ((1 - 1) / (1 : ℝ)) • (⟨0, 0, 1⟩ : V3) = ⟨0, 0, 1⟩ := by
    apply V3.ext <;> simp
  simp only [hp, neg_zero] at h2
  obtain ⟨b3, h3⟩ := openPlane_propagate 0 (free00m 1 ⟨0, 0, 1⟩ b2) (by norm_num)
  have ha : ∀ t, (openPlane t).aperture = some ⟨.length, fun _ => true⟩ := fun _ => rfl
  have ha' : ∀ t, (openMirror t).aperture = some ⟨.length, fun _ => true⟩ := fun _ => rfl
  have ht : ∀ t, (openPlane t).transformation = some (Rigid.translation t) := fun _ => rfl
  have hn : ∀ t p, (openPlane t).sag.normal p = some ⟨0, 0, -1⟩ := fun _ _ => rfl
  have key : ∃ r, stopRays checkingSolver ⟨0, 0⟩ 1
      [openPlane 0, openMirror ⟨0, 0, 1⟩, openPlane ⟨0, 0, -1⟩] 1 2 ⟨0, 0⟩ ⟨0, 0⟩ none = some r ∧
      r.direction = ⟨0, 0, 1⟩ := by
    unfold stopRays stopRaysFound stopRaysOnlyFound
    simp only [List.getElem?_cons_zero, List.getElem?_cons_succ, Option.bind_eq_bind,
      Option.bind_some, ha, ha', List.take_succ_cons, List.take_zero, List.drop_succ_cons,
      List.drop_zero, checkingSolver, herr, if_true, hstop, List.reverse_cons, List.reverse_nil,
      List.nil_append, List.cons_append, propagateSurfaces_cons, propagateSurfaces_nil, h2, h3, ht,
      List.head?_cons, Option.elim_some, Ray.unmove, translation_ivec, hn, Option.pure_def,
      Option.elim_none, List.take_nil, Option.some.injEq, exists_eq_left']
    have hpos : (0 : ℝ) < (⟨0, 0, -1⟩ : V3).dot ⟨0, 0, -1⟩ := by simp [dot]
    rw [if_pos hpos]
    apply V3.ext <;> simp
  obtain ⟨r, hr, hd⟩ := key
  refine ⟨r, hr, hd, ?_⟩
  exact (C68_folded_partial checkingSolver ⟨0, 0⟩ 1 [openPlane 0] (openMirror ⟨0, 0, 1⟩) []
    (openPlane ⟨0, 0, -1⟩) [] ⟨0, 0⟩ ⟨0, 0⟩ none r
    (by
      intro s hs
      simp only [List.cons_append, List.nil_append, List.mem_cons, List.not_mem_nil, or_false] at hs
      rcases hs with rfl | rfl
      · exact openPlane_fold _
      · exact openMirror_fold _)
    (by simpa using reversible_plane ⟨0, 0, -1⟩) (by simpa using openPlane_blind ⟨0, 0, -1⟩)
    (by
      rintro s (rfl | rfl) ap hap
      · simp only [openMirror, openPlane, Option.some.injEq] at hap; subst hap; rfl
      · simp only [openPlane, Option.some.injEq] at hap; subst hap; rfl) hr).2

/-- A transmission grating with unit spacing, in first order. -/
noncomputable def openGrating (t : V3) : Surface := { openPlane t with rulings := some (idealRulings 1 1) }

theorem openGrating_propagate (t : V3) (w x y z i : ℝ) (p : V3) (b : Bool) (hz : 0 < z) :
    (openGrating t).propagate ⟨w, p, ⟨x, y, z⟩, i, 0, 1, b⟩ =
      (sqrt? (1 - ((x - w) ^ 2 + y ^ 2))).map fun s =>
        ⟨w, p + ((t.z - p.z) / z) • (⟨x, y, z⟩ : V3), ⟨x - w, y, s⟩, i, 0, 1, b⟩ := by
  have hf : (openGrating t).frame = Rigid.translation t := rfl
  rw [Surface.propagate_eq, hf]
  have hl : (1 : ℝ) • (⟨1, 0, 0⟩ : V3) = ⟨1, 0, 0⟩ := by apply V3.ext <;> simp
  have hlen : (⟨1, 0, 0⟩ : V3).len = 1 := by simp [len, dot]
  have heff : incidentEffective w ⟨x, y, z⟩ 1 ⟨0, 0, -1⟩ 1 1 ⟨1, 0, 0⟩ = some ⟨x - w, y, z⟩ := by
    unfold incidentEffective
    have hs : sgn (x * 0 + y * 0 + z * -1) = -1 := by
      have : x * 0 + y * 0 + z * -1 = -z := by ring
      rw [this, sgn_neg']; unfold sgn; simp [hz, not_lt.2 hz.le, hz.ne']
    simp only [hs, mul_one, Option.bind_eq_bind, Option.pure_def]
    rw [div?_of_ne one_ne_zero, div?_of_ne one_ne_zero]
    simp only [Option.bind_some, Option.some.injEq, V3.mk.injEq]
    refine ⟨by ring, by ring, by ring⟩
  have hru : rulingsIncidentEffective (constantSpacing 1 ⟨1, 0, 0⟩ (p - t + ((t.z - p.z) / z) • (⟨x, y, z⟩ : V3)) ⟨0, 0, -1⟩) 1 w ⟨x, y, z⟩ 1
      ⟨0, 0, -1⟩ = some ⟨x - w, y, z⟩ := by
    unfold rulingsIncidentEffective constantSpacing
    rw [hl]
    simp only [Option.bind_eq_bind, Option.bind_some, hlen]
    rw [div?_of_ne one_ne_zero, div?_of_ne one_ne_zero]
    simp only [Option.bind_some, div_one]
    exact heff
  have hsn : snellsLaw ⟨x - w, y, z⟩ 1 1 false ⟨0, 0, -1⟩ =
      (sqrt? (1 - ((x - w) ^ 2 + y ^ 2))).map fun s => ⟨x - w, y, s⟩ := by
    unfold snellsLaw
    simp only [Option.bind_eq_bind, Option.pure_def]
    rw [div?_of_ne one_ne_zero]
    simp only [Option.bind_some, div_one, mul_one]
    rw [div?_of_ne one_ne_zero]
    simp only [Option.bind_some, div_one]
    have e1 : 1 + ((x - w) * 0 + y * 0 + z * -1) * ((x - w) * 0 + y * 0 + z * -1) -
        ((x - w) * (x - w) + y * y + z * z) = 1 - ((x - w) ^ 2 + y ^ 2) := by ring
    rw [e1]
    have e2 : copysign1 ((x - w) * 0 + y * 0 + z * -1) = -1 := by
      unfold copysign1; rw [if_pos (by linarith)]
    rw [e2]
    cases sqrt? (1 - ((x - w) ^ 2 + y ^ 2)) with
    | none => rfl
    | some s =>
      simp only [Option.bind_some, Option.map_some, Option.some.injEq, V3.mk.injEq,
        Bool.false_eq_true, if_false]
      refine ⟨by ring, by ring, by ring⟩
  have hint : flatIntercept (p - t) ⟨x, y, z⟩ =
      some (p - t + ((t.z - p.z) / z) • (⟨x, y, z⟩ : V3)) := by
    unfold flatIntercept
    simp only [Option.bind_eq_bind, Option.pure_def]
    rw [div?_of_ne hz.ne']
    simp only [Option.bind_some, Option.some.injEq]
    apply V3.ext <;> simp <;> ring
  simp only [openGrating, openPlane, Surface.propagateLocal, Sag.propagate, flatSag, Ray.unmove,
    translation_ipoint, translation_ivec, hint, Option.bind_eq_bind, Option.bind_some,
    Option.pure_def, neg_zero, zero_mul, Real.exp_zero, one_mul, Surface.interact, flatNormal,
    Surface.effectiveRay, idealRulings, hru, Option.map_some, vacuum, hsn, Surface.rulingFactor]
  rw [div?_of_ne one_ne_zero]
  simp only [Option.bind_some, div_one]
  rw [div?_of_ne one_ne_zero]
  simp only [Option.bind_some, div_one]
  cases sqrt? (1 - ((x - w) ^ 2 + y ^ 2)) with
  | none => rfl
  | some s =>
    simp only [Option.bind_some, Option.map_some, Surface.clip, Aperture.clip, Bool.and_true,
      Ray.move, translation_point, translation_vec, mul_one, Option.some.injEq, Ray.mk.injEq,
      and_true, true_and]
    apply V3.ext <;> simp <;> ring

/-- The ray from the centre of a flat stop to the point `X` of a parallel plane at a distance of one is
unique. -/
theorem stopRay_unique {w X : ℝ} {s : Surface} {t : V3} (hs : s.sag = flatSag)
    (ht : s.transformation = some (Rigid.translation t)) {a : V2} {ρ out : Ray} {c : V2}
    (hρ : stopRay w s .length ⟨0, 0⟩ a = some ρ)
    (hout : propagateSurfaces [openPlane (t + ⟨0, 0, 1⟩)] ρ = some out)
    (hc : stopComponent .length (out.unmove (openPlane (t + ⟨0, 0, 1⟩)).frame) = some c)
    (hx : c.x = X) (hy : c.y = 0) :
    ρ = ⟨w, t, ⟨X * ρ.direction.z, 0, ρ.direction.z⟩, 1, 0, 1, true⟩ ∧ 0 < ρ.direction.z ∧
      (1 + X ^ 2) * ρ.direction.z ^ 2 = 1 := by
  obtain ⟨z, q, hz, hq, h1⟩ := stopRay_length hρ
  have hz0 : z = 0 := by rw [hs] at hz; simpa [flatSag, flatHeight] using hz.symm
  have hfr : s.frame = Rigid.translation t := by simp [Surface.frame, ht]
  have hfree := (stopRay_free hρ).1
  have hne : ρ.direction.z ≠ 0 := by
    rw [propagateSurfaces_cons] at hout
    obtain ⟨o, ho, -⟩ := Option.bind_eq_some_iff.1 hout
    have := (fold_propagate (openPlane_fold _) hfree ho).1
    rw [show (openPlane (t + ⟨0, 0, 1⟩)).frame = Rigid.translation (t + ⟨0, 0, 1⟩) from rfl,
      translation_ivec] at this
    exact this
  obtain ⟨b, hb⟩ := openPlane_propagate (t + ⟨0, 0, 1⟩) hfree hne
  rw [propagateSurfaces_cons, hb] at hout
  simp only [Option.bind_some, propagateSurfaces_nil, Option.some.injEq] at hout
  have hp : ρ.position = t := by
    rw [h1, hfr, translation_point, hz0]; apply V3.ext <;> simp
  rw [← hout] at hc
  simp only [stopComponent, Ray.unmove, openPlane, Surface.frame, Option.getD_some,
    translation_ipoint, hp, Option.some.injEq] at hc
  rw [← hc] at hx hy
  have hdz : ρ.direction.z = q := by rw [h1]
  have hdx : ρ.direction.x = a.x := by rw [h1]
  have hdy : ρ.direction.y = a.y := by rw [h1]
  simp only [sub_x, sub_y, add_x, add_y, add_z, smul_x, smul_y, add_sub_cancel_left]
    at hx hy
  rw [hdx, hdz] at hx
  rw [hdy, hdz] at hy
  rw [hdz] at hne
  obtain ⟨hu, hq0⟩ := unit_of_sqrt hq
  have hqp : 0 < q := lt_of_le_of_ne hq0 (Ne.symm hne)
  have hx' : a.x = X * q := by field_simp at hx; linarith
  have hy' : a.y = 0 := by field_simp at hy; linarith
  refine ⟨?_, by rw [hdz]; exact hqp, ?_⟩
  · rw [hdz, h1, hz0, hfr, translation_point, hx', hy']
    simp only [Ray.mk.injEq, and_true, true_and]
    apply V3.ext <;> simp
  · simp only [dot, hx', hy'] at hu
    rw [hdz]; linear_combination hu

/-- Object, grating and sensor. -/
noncomputable def gratingSystem : List Surface :=
  [openPlane 0, openGrating ⟨0, 0, 1⟩, openPlane ⟨0, 0, 2⟩]

theorem grating_root {solver : RootFinder} {guess : V2} {r : Ray}
    (h : stopRays solver guess (3 / 5) gratingSystem 1 2 ⟨0, 0⟩ ⟨0, 0⟩ none = some r) :
    r.position = ⟨3 / 4, 0, 0⟩ ∧ r.direction = ⟨-3 / 5, 0, 4 / 5⟩ ∧ r.wavelength = 3 / 5 ∧ Free r := by
  obtain ⟨apf, apl, a, ρ, out, c, r0, obj, n, h1, h2, h3, h4, h5, h6, h7, h8, h9, h10, σ, hσ, h11, h12,
    h13⟩ := stopRays_eq_some (init := [openPlane 0]) (mid := []) (post := []) h
  have e1 : apf.unit = .length := by
    simp only [openGrating, openPlane, Option.some.injEq] at h1; rw [← h1]
  have e2 : apl.unit = .length := by
    simp only [openPlane, Option.some.injEq] at h2; rw [← h2]
  rw [e1] at h3
  rw [e2] at h5
  have ht : (⟨0, 0, 2⟩ : V3) = (⟨0, 0, 1⟩ : V3) + ⟨0, 0, 1⟩ := by
    apply V3.ext <;> simp; norm_num
  rw [ht] at h4 h5
  obtain ⟨k1, k2, k3⟩ := stopRay_unique (s := openGrating ⟨0, 0, 1⟩) (t := ⟨0, 0, 1⟩) rfl rfl h3 h4 h5
    h6 h7
  simp only at k1 k3
  have hz1 : ρ.direction.z = 1 := by nlinarith
  rw [hz1] at k1
  simp only [List.cons_append, List.nil_append, List.reverse_cons, List.reverse_nil,
    propagateSurfaces_cons, propagateSurfaces_nil] at h8
  rw [k1, openGrating_propagate _ _ _ _ _ _ _ _ one_pos] at h8
  have hs : sqrt? (1 - (((0 : ℝ) * 1 - 3 / 5) ^ 2 + 0 ^ 2)) = some (4 / 5) := by
    rw [← sqrt45]; norm_num
  rw [hs] at h8
  simp only [Option.map_some, Option.bind_some] at h8
  have hf : Free ⟨3 / 5, (⟨0, 0, 1⟩ : V3) + ((1 - 1) / (1 : ℝ)) • (⟨0 * 1, 0, 1⟩ : V3),
      ⟨0 * 1 - 3 / 5, 0, 4 / 5⟩, 1, 0, 1, true⟩ := ⟨rfl, rfl, by simp [dot]; norm_num⟩
  obtain ⟨b, hb⟩ := openPlane_propagate 0 hf (by norm_num)
  rw [hb] at h8
  simp only [Option.bind_some] at h8
  have h8 := Option.some.inj h8
  have hobj : obj = openPlane 0 := by simpa using h9.symm
  have hn : n = ⟨0, 0, -1⟩ := by
    rw [hobj] at h10; simpa [openPlane, flatSag, flatNormal] using h10.symm
  have hσ1 : σ = 1 := by
    apply h12
    rw [hobj, show (openPlane 0).frame = Rigid.translation 0 from rfl, translation_ivec, ← h8, hn]
    simp [dot]; norm_num
  rw [hσ1, V3.one_smul] at h13
  have hr : r = r0 := h13
  rw [hr, ← h8]
  refine ⟨?_, ?_, rfl, rfl, rfl, hf.unit⟩
  · apply V3.ext <;> simp; norm_num
  · simp only [V3.mk.injEq, and_true]; norm_num

/-- **C68** fails for a grating: of a system of an object, a grating that is the pupil stop, and a
sensor that is the field stop, the ray that is returned for the centres of both stops does not pass
the grating at all, whichever way the root has been found. The grating diffracts the light on the way
back by the same angle as on the way forth. There is a ray from the object that does pass through the
centres of both stops. -/
theorem C68_grating_counterexample :
    (∃ r, stopRays checkingSolver ⟨0, 0⟩ (3 / 5) gratingSystem 1 2 ⟨0, 0⟩ ⟨0, 0⟩ none = some r) ∧
    (∀ solver guess r,
      stopRays solver guess (3 / 5) gratingSystem 1 2 ⟨0, 0⟩ ⟨0, 0⟩ none = some r →
      ¬Strikes gratingSystem 1 ⟨0, 0⟩ r ∧ ¬Strikes gratingSystem 2 ⟨0, 0⟩ r) ∧
    Strikes gratingSystem 1 ⟨0, 0⟩ ⟨3 / 5, ⟨-3 / 4, 0, 0⟩, ⟨3 / 5, 0, 4 / 5⟩, 1, 0, 1, true⟩ ∧
    Strikes gratingSystem 2 ⟨0, 0⟩ ⟨3 / 5, ⟨-3 / 4, 0, 0⟩, ⟨3 / 5, 0, 4 / 5⟩, 1, 0, 1, true⟩ := by
  have hs1 : sqrt? (1 - (((3 / 5 : ℝ) - 3 / 5) ^ 2 + 0 ^ 2)) = some 1 := by simp [sqrt?]
  have hfwd : ∃ b, propagateSurfaces [openPlane 0, openGrating ⟨0, 0, 1⟩]
      ⟨3 / 5, ⟨-3 / 4, 0, 0⟩, ⟨3 / 5, 0, 4 / 5⟩, 1, 0, 1, true⟩ =
      some ⟨3 / 5, ⟨0, 0, 1⟩, ⟨0, 0, 1⟩, 1, 0, 1, b⟩ := by
    obtain ⟨b', hb⟩ := openPlane_propagate 0 (free35 (3 / 5) ⟨-3 / 4, 0, 0⟩ true) (by norm_num)
    refine ⟨b', ?_⟩
    rw [propagateSurfaces_cons, hb]
    simp only [Option.bind_some, propagateSurfaces_cons, propagateSurfaces_nil]
    rw [openGrating_propagate _ _ _ _ _ _ _ _ (by norm_num), hs1]
    simp only [Option.map_some, Option.bind_some, propagateSurfaces_nil, Option.some.injEq,
      Ray.mk.injEq, and_true, true_and]
    constructor <;> apply V3.ext <;> simp; norm_num
  refine ⟨?_, ?_, ?_, ?_⟩
  · have hstop := stopRay_axis (3 / 5) (openGrating ⟨0, 0, 1⟩) ⟨0, 0, 1⟩ rfl rfl
    obtain ⟨b1, h1⟩ := openPlane_propagate ⟨0, 0, 2⟩ (free001 (3 / 5) ⟨0, 0, 1⟩ true) (by norm_num)
    have herr : rayError (3 / 5) (openGrating ⟨0, 0, 1⟩) .length ⟨0, 0⟩ [openPlane ⟨0, 0, 2⟩]
        (openPlane ⟨0, 0, 2⟩) .length ⟨0, 0⟩ ⟨0, 0⟩ = some ⟨0, 0⟩ := by
      simp only [rayError, hstop, Option.bind_eq_bind, Option.bind_some, propagateSurfaces_cons,
        propagateSurfaces_nil, h1, Option.pure_def]
      simp only [openPlane, Option.elim_some, Ray.unmove, stopComponent, Option.bind_some,
        translation_ipoint, Option.some.injEq, V2.mk.injEq]
      constructor <;> simp
    have hs : sqrt? (1 - (((0 : ℝ) - 3 / 5) ^ 2 + 0 ^ 2)) = some (4 / 5) := by
      rw [← sqrt45]; norm_num
    have hg := openGrating_propagate ⟨0, 0, 1⟩ (3 / 5) 0 0 1 1 ⟨0, 0, 1⟩ true one_pos
    rw [hs] at hg
    have hf : Free ⟨3 / 5, (⟨0, 0, 1⟩ : V3) + ((1 - 1) / (1 : ℝ)) • (⟨0, 0, 1⟩ : V3),
      ⟨0 - 3 / 5, 0, 4 / 5⟩, 1, 0, 1, true⟩ := ⟨rfl, rfl, by simp [dot]; norm_num⟩
    obtain ⟨b, hb⟩ := openPlane_propagate 0 hf (by norm_num)
    have ha : ∀ t, (openPlane t).aperture = some ⟨.length, fun _ => true⟩ := fun _ => rfl
    have ha' : ∀ t, (openGrating t).aperture = some ⟨.length, fun _ => true⟩ := fun _ => rfl
    have hn : ∀ t p, (openPlane t).sag.normal p = some ⟨0, 0, -1⟩ := fun _ _ => rfl
    unfold stopRays stopRaysFound stopRaysOnlyFound gratingSystem
    simp only [List.getElem?_cons_zero, List.getElem?_cons_succ, Option.bind_eq_bind,
      Option.bind_some, ha, ha', List.take_succ_cons, List.take_zero, List.drop_succ_cons,
      List.drop_zero, checkingSolver, herr, if_true, hstop, List.reverse_cons, List.reverse_nil,
      List.nil_append, List.cons_append, propagateSurfaces_cons, propagateSurfaces_nil, hg, hb,
      List.head?_cons, hn, Option.pure_def, Option.map_some,
      Option.elim_none, List.take_nil, Option.some.injEq, exists_eq']
  · intro solver guess r h
    obtain ⟨k1, k2, k3, k4⟩ := grating_root h
    obtain ⟨w, p, d, i, at', n, b⟩ := r
    obtain ⟨f1, f2, f3⟩ := k4
    simp only at k1 k2 k3 f1 f2 f3
    subst k1 k2 k3 f1 f2
    have hf : Free ⟨3 / 5, ⟨3 / 4, 0, 0⟩, ⟨-3 / 5, 0, 4 / 5⟩, i, 0, 1, b⟩ := ⟨rfl, rfl, f3⟩
    obtain ⟨b', hb⟩ := openPlane_propagate 0 hf (by norm_num)
    have hbad : ∀ p b, (openGrating ⟨0, 0, 1⟩).propagate ⟨3 / 5, p, ⟨-3 / 5, 0, 4 / 5⟩, i, 0, 1, b⟩
        = none := by
      intro p b
      rw [openGrating_propagate _ _ _ _ _ _ _ _ (by norm_num)]
      have : sqrt? (1 - ((-3 / 5 - 3 / 5 : ℝ) ^ 2 + 0 ^ 2)) = none := by
        rw [sqrt?_eq_none]; norm_num
      rw [this]; rfl
    constructor
    · rintro ⟨s, ap, out, -, -, hout, -⟩
      simp [gratingSystem, propagateSurfaces_cons, hb, hbad] at hout
    · rintro ⟨s, ap, out, -, -, hout, -⟩
      simp [gratingSystem, propagateSurfaces_cons, hb, hbad] at hout
  · obtain ⟨b', hb⟩ := hfwd
    refine ⟨openGrating ⟨0, 0, 1⟩, ⟨.length, fun _ => true⟩, _, rfl, rfl, hb, ?_⟩
    simp only [show (openGrating ⟨0, 0, 1⟩).frame = Rigid.translation ⟨0, 0, 1⟩ from rfl,
        translation_ipoint]
    constructor <;> simp
  · obtain ⟨b', hb⟩ := hfwd
    obtain ⟨b2, h2⟩ := openPlane_propagate ⟨0, 0, 2⟩ (free001 (3 / 5) ⟨0, 0, 1⟩ b') (by norm_num)
    refine ⟨openPlane ⟨0, 0, 2⟩, ⟨.length, fun _ => true⟩, ⟨3 / 5, (⟨0, 0, 1⟩ : V3) +
      ((2 - 1) / (1 : ℝ)) • (⟨0, 0, 1⟩ : V3), ⟨0, 0, 1⟩, 1, 0, 1, b2⟩, rfl, rfl, ?_, ?_⟩
    · have : gratingSystem.take (2 + 1) = [openPlane 0, openGrating ⟨0, 0, 1⟩] ++
        [openPlane ⟨0, 0, 2⟩] := rfl
      rw [this, propagateSurfaces_append, hb]
      simp only [Option.bind_some, propagateSurfaces_cons, propagateSurfaces_nil]
      rw [h2]; rfl
    · simp only [show (openPlane ⟨0, 0, 2⟩).frame = Rigid.translation ⟨0, 0, 2⟩ from rfl,
        translation_ipoint]
      constructor <;> simp

/-- A flat surface of glass with index `39 / 25`. -/
noncomputable def openGlass (t : V3) : Surface :=
  { openPlane t with material := ⟨fun _ => some (39 / 25), fun _ => some 0, fun _ _ => some 1, false⟩ }

/-- What a plane interface with index `n2` does to a ray. -/
theorem interface_propagate (t : V3) (n2 : ℝ) (hn2 : 0 < n2) {w x z i n1 s : ℝ} {p : V3} {b : Bool}
    (hn1 : 0 < n1) (hz : 0 < z) (hs : 0 < s)
    (hsn : (n1 / n2 * x) ^ 2 + s ^ 2 = 1) :
    ({ openPlane t with material := ⟨fun _ => some n2, fun _ => some 0, fun _ _ => some 1, false⟩ } :
      Surface).propagate ⟨w, p, ⟨x, 0, z⟩, i, 0, n1, b⟩ =
    some ⟨w / (n1 / n2), p + ((t.z - p.z) / z) • (⟨x, 0, z⟩ : V3), ⟨n1 / n2 * x, 0, s⟩, i, 0, n2, b⟩ := by
  rw [Surface.propagate_eq]
  have hf : ({ openPlane t with
      material := ⟨fun _ => some n2, fun _ => some 0, fun _ _ => some 1, false⟩ } : Surface).frame =
      Rigid.translation t := rfl
  rw [hf]
  have hr : n1 / n2 ≠ 0 := (div_pos hn1 hn2).ne'
  have hsn' : snellsLaw ⟨x, 0, z⟩ n1 n2 false ⟨0, 0, -1⟩ = some ⟨n1 / n2 * x, 0, s⟩ := by
    unfold snellsLaw
    simp only [Option.bind_eq_bind, Option.pure_def]
    rw [div?_of_ne hn2.ne']
    simp only [Option.bind_some]
    rw [div?_of_ne (mul_ne_zero hr hr)]
    simp only [Option.bind_some]
    have e1 : 1 / (n1 / n2 * (n1 / n2)) + (x * 0 + 0 * 0 + z * -1) * (x * 0 + 0 * 0 + z * -1) -
        (x * x + 0 * 0 + z * z) = (s / (n1 / n2)) ^ 2 := by
      rw [div_pow s]
      field_simp at hsn ⊢
      nlinarith
    have hpos : 0 ≤ s / (n1 / n2) := by positivity
    rw [e1, sqrt?_of_nonneg (sq_nonneg _), Real.sqrt_sq hpos]
    have e2 : copysign1 (x * 0 + 0 * 0 + z * -1) = -1 := by
      unfold copysign1; rw [if_pos (by linarith)]
    rw [e2]
    simp only [Option.bind_some, Option.some.injEq, V3.mk.injEq, Bool.false_eq_true, if_false]
    refine ⟨by ring, by ring, ?_⟩
    field_simp
    ring
  have hint : flatIntercept (p - t) ⟨x, 0, z⟩ =
      some (p - t + ((t.z - p.z) / z) • (⟨x, 0, z⟩ : V3)) := by
    unfold flatIntercept
    simp only [Option.bind_eq_bind, Option.pure_def]
    rw [div?_of_ne hz.ne']
    simp only [Option.bind_some, Option.some.injEq]
    apply V3.ext <;> simp <;> ring
  simp only [openPlane, Surface.propagateLocal, Sag.propagate, flatSag, Ray.unmove,
    translation_ipoint, translation_ivec, hint, Option.bind_eq_bind, Option.bind_some,
    Option.pure_def, neg_zero, zero_mul, Real.exp_zero, one_mul, Surface.interact, flatNormal,
    Surface.effectiveRay, Option.map_some, hsn', Surface.rulingFactor]
  rw [div?_of_ne hn2.ne']
  simp only [Option.bind_some]
  rw [div?_of_ne hr]
  simp only [Option.bind_some, Surface.clip, Aperture.clip, Bool.and_true, Option.map_some,
      Ray.move, translation_point, translation_vec, mul_one, Option.some.injEq, Ray.mk.injEq,
      and_true, true_and]
  apply V3.ext <;> simp <;> ring

/-- Object, front of a block of glass, and sensor. -/
noncomputable def glassSystem : List Surface :=
  [openPlane 0, openGlass ⟨0, 0, 1⟩, openPlane ⟨0, 0, 2⟩]

/-- **C68** fails for glass: if the front of a block of glass is the first stop, the ray that is
returned for its centre, and the point `x = 3 / 4` of the sensor behind it, arrives at the glass at
`x = 1 / 3`, whichever way the root has been found: the ray inside the glass is taken for a ray in
vacuum, and is refracted in the wrong sense on the way back. -/
theorem C68_glass_counterexample :
    (∃ r, stopRays checkingSolver ⟨3 / 5, 0⟩ 1 glassSystem 1 2 ⟨0, 0⟩ ⟨3 / 4, 0⟩ none = some r) ∧
    (∀ solver guess r, stopRays solver guess 1 glassSystem 1 2 ⟨0, 0⟩ ⟨3 / 4, 0⟩ none = some r →
      ¬Strikes glassSystem 1 ⟨0, 0⟩ r ∧ Strikes glassSystem 1 ⟨1 / 3, 0⟩ r) := by
  have hglass := fun (w x z i n1 s : ℝ) (p : V3) (b : Bool) (h1 : 0 < n1) (h2 : 0 < z) (h3 : 0 < s)
    (h5 : (n1 / (39 / 25) * x) ^ 2 + s ^ 2 = 1) =>
    interface_propagate ⟨0, 0, 1⟩ (39 / 25) (by norm_num) (w := w) (i := i) (p := p) (b := b) h1 h2 h3 h5
  have hplane := fun (w x z i n1 s : ℝ) (p : V3) (b : Bool) (h1 : 0 < n1) (h2 : 0 < z) (h3 : 0 < s)
    (h5 : (n1 / 1 * x) ^ 2 + s ^ 2 = 1) =>
    interface_propagate 0 1 one_pos (w := w) (i := i) (p := p) (b := b) h1 h2 h3 h5
  change ∀ (w x z i n1 s : ℝ) (p : V3) (b : Bool) (h1 : 0 < n1) (h2 : 0 < z) (h3 : 0 < s)
    (h5 : (n1 / (39 / 25) * x) ^ 2 + s ^ 2 = 1),
    (openGlass ⟨0, 0, 1⟩).propagate _ = _ at hglass
  change ∀ (w x z i n1 s : ℝ) (p : V3) (b : Bool) (h1 : 0 < n1) (h2 : 0 < z) (h3 : 0 < s)
    (h5 : (n1 / 1 * x) ^ 2 + s ^ 2 = 1),
    (openPlane 0).propagate _ = _ at hplane
  have hback : propagateSurfaces [openGlass ⟨0, 0, 1⟩, openPlane 0]
      ⟨1, ⟨0, 0, 1⟩, ⟨3 / 5, 0, 4 / 5⟩, 1, 0, 1, true⟩ =
      some ⟨1, ⟨-5 / 12, 0, 0⟩, ⟨3 / 5, 0, 4 / 5⟩, 1, 0, 1, true⟩ := by
    rw [propagateSurfaces_cons, hglass 1 (3 / 5) (4 / 5) 1 1 (12 / 13) _ _ (by norm_num) (by norm_num)
      (by norm_num) (by norm_num)]
    simp only [Option.bind_some, propagateSurfaces_cons, propagateSurfaces_nil]
    rw [hplane _ _ (12 / 13) 1 (39 / 25) (4 / 5) _ _ (by norm_num) (by norm_num) (by norm_num)
      (by norm_num)]
    simp only [Option.bind_some, propagateSurfaces_nil, Option.some.injEq, Ray.mk.injEq, and_true,
      true_and]
    refine ⟨by norm_num, ?_, ?_⟩ <;> apply V3.ext <;> simp <;> norm_num
  have hn : ∀ t p, (openPlane t).sag.normal p = some ⟨0, 0, -1⟩ := fun _ _ => rfl
  constructor
  · have hstop : stopRay 1 (openGlass ⟨0, 0, 1⟩) .length ⟨0, 0⟩ ⟨3 / 5, 0⟩ =
        some ⟨1, ⟨0, 0, 1⟩, ⟨3 / 5, 0, 4 / 5⟩, 1, 0, 1, true⟩ := by
      simp only [stopRay, Option.bind_eq_bind]
      rw [sqrt45]
      simp only [openGlass, openPlane, flatSag, flatHeight, Option.bind_some, Option.pure_def,
        Option.elim_some, translation_point, Option.some.injEq, Ray.mk.injEq, and_true, true_and]
      apply V3.ext <;> simp
    obtain ⟨b1, h1⟩ := openPlane_propagate ⟨0, 0, 2⟩ (free35 1 ⟨0, 0, 1⟩ true) (by norm_num)
    have herr : rayError 1 (openGlass ⟨0, 0, 1⟩) .length ⟨0, 0⟩ [openPlane ⟨0, 0, 2⟩]
        (openPlane ⟨0, 0, 2⟩) .length ⟨3 / 4, 0⟩ ⟨3 / 5, 0⟩ = some ⟨0, 0⟩ := by
      simp only [rayError, hstop, Option.bind_eq_bind, Option.bind_some, propagateSurfaces_cons,
        propagateSurfaces_nil, h1, Option.pure_def]
      simp only [openPlane, Option.elim_some, Ray.unmove, stopComponent, Option.bind_some,
        translation_ipoint, Option.some.injEq, V2.mk.injEq]
      constructor <;> simp; norm_num
    have ha : ∀ t, (openPlane t).aperture = some ⟨.length, fun _ => true⟩ := fun _ => rfl
    have ha' : ∀ t, (openGlass t).aperture = some ⟨.length, fun _ => true⟩ := fun _ => rfl
    unfold stopRays stopRaysFound stopRaysOnlyFound glassSystem
    simp only [List.getElem?_cons_zero, List.getElem?_cons_succ, Option.bind_eq_bind,
      Option.bind_some, ha, ha', List.take_succ_cons, List.take_zero, List.drop_succ_cons,
      List.drop_zero, checkingSolver, herr, if_true, hstop, List.reverse_cons, List.reverse_nil,
      List.nil_append, List.cons_append, hback,
      List.head?_cons, hn, Option.pure_def,
      Option.elim_none, List.take_nil, Option.some.injEq, exists_eq']
  · intro solver guess r h
    obtain ⟨apf, apl, a, ρ, out, c, r0, obj, n, h1, h2, h3, h4, h5, h6, h7, h8, h9, h10, σ, hσ, h11,
      h12, h13⟩ := stopRays_eq_some (init := [openPlane 0]) (mid := []) (post := []) h
    have e1 : apf.unit = .length := by
      simp only [openGlass, openPlane, Option.some.injEq] at h1; rw [← h1]
    have e2 : apl.unit = .length := by
      simp only [openPlane, Option.some.injEq] at h2; rw [← h2]
    rw [e1] at h3
    rw [e2] at h5
    have ht : (⟨0, 0, 2⟩ : V3) = (⟨0, 0, 1⟩ : V3) + ⟨0, 0, 1⟩ := by
      apply V3.ext <;> simp; norm_num
    rw [ht] at h4 h5
    obtain ⟨k1, k2, k3⟩ := stopRay_unique (s := openGlass ⟨0, 0, 1⟩) (t := ⟨0, 0, 1⟩) rfl rfl h3 h4 h5
      h6 h7
    simp only at k1 k3
    have hz1 : ρ.direction.z = 4 / 5 := by nlinarith
    rw [hz1] at k1
    have k1' : ρ = ⟨1, ⟨0, 0, 1⟩, ⟨3 / 5, 0, 4 / 5⟩, 1, 0, 1, true⟩ := by
      rw [k1]; norm_num
    have h8' : propagateSurfaces [openGlass ⟨0, 0, 1⟩, openPlane 0] ρ = some r0 := h8
    rw [k1', hback] at h8'
    have h8'' := Option.some.inj h8'
    have hobj : obj = openPlane 0 := by simpa using h9.symm
    have hn' : n = ⟨0, 0, -1⟩ := by
      rw [hobj] at h10; simpa [openPlane, flatSag, flatNormal] using h10.symm
    have hσ1 : σ = 1 := by
      apply h12
      rw [hobj, show (openPlane 0).frame = Rigid.translation 0 from rfl, translation_ivec, ← h8'', hn']
      simp [dot]; norm_num
    rw [hσ1, V3.one_smul] at h13
    have hr : r = r0 := h13
    rw [hr, ← h8'']
    have hfwd : ∃ o, propagateSurfaces (glassSystem.take (1 + 1))
        ⟨1, ⟨-5 / 12, 0, 0⟩, ⟨3 / 5, 0, 4 / 5⟩, 1, 0, 1, true⟩ = some o ∧
        o.position = ⟨1 / 3, 0, 1⟩ := by
      have : glassSystem.take (1 + 1) = [openPlane 0, openGlass ⟨0, 0, 1⟩] := rfl
      rw [this, propagateSurfaces_cons, hplane 1 (3 / 5) (4 / 5) 1 1 (4 / 5) _ _ (by norm_num)
        (by norm_num) (by norm_num) (by norm_num)]
      simp only [Option.bind_some, propagateSurfaces_cons, propagateSurfaces_nil]
      rw [hglass _ _ (4 / 5) 1 1 (12 / 13) _ _ (by norm_num) (by norm_num) (by norm_num)
        (by norm_num)]
      refine ⟨_, rfl, ?_⟩
      apply V3.ext <;> simp <;> norm_num
    obtain ⟨o, ho, hop⟩ := hfwd
    have hfr : (openGlass ⟨0, 0, 1⟩).frame = Rigid.translation ⟨0, 0, 1⟩ := rfl
    constructor
    · rintro ⟨s, ap, out', g1, g2, g3, g4⟩
      simp only [glassSystem, List.getElem?_cons_succ, List.getElem?_cons_zero,
        Option.some.injEq] at g1
      subst g1
      simp only [openGlass, openPlane, Option.some.injEq] at g2
      subst g2
      rw [ho] at g3
      simp only [Option.some.injEq] at g3
      subst g3
      simp only [hfr, translation_ipoint, hop] at g4
      norm_num at g4
    · refine ⟨openGlass ⟨0, 0, 1⟩, ⟨.length, fun _ => true⟩, o, rfl, rfl, ho, ?_⟩
      simp only [hfr, translation_ipoint, hop]
      constructor <;> simp

end Optika
