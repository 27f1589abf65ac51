import Verif.Props.SolvedSag
import Verif.Props.StopGrid

/-!
# C08, C68 and C69 with iterations that stop before they are exact
-/

namespace Optika
open V3

/-- **C08**, sags that inherit the intercept, with an iteration that stops at a residual of at most
`error`: the result lies on the ray, and is at most `error` above or below the surface. -/
theorem C08_tolerance {error : ℝ} {solver : TolerantLineSolver error} {height : V3 → Option ℝ} {o u q : V3}
    (h : solvedInterceptFound solver.find height o u = some q) :
    OnLine o u q ∧ ∃ z, height q = some z ∧ |q.z - z| ≤ error := by
  unfold solvedInterceptFound at h
  simp only [Option.bind_eq_bind, Option.bind_eq_some_iff, Option.pure_def, Option.some.injEq] at h
  obtain ⟨t, ht, rfl⟩ := h
  obtain ⟨e, he, hle⟩ := solver.close _ _ _ ht
  simp only [Option.bind_eq_some_iff, Option.some.injEq] at he
  obtain ⟨z, hz, rfl⟩ := he
  exact ⟨⟨t, rfl⟩, z, hz, hle⟩

/-- **C08**, sags that inherit the intercept, with an iteration that stops at a residual of at most
`error`: if the ray is steeper than the surface by a margin, the result is close to the point where the
ray and the surface meet, in proportion to `error`. -/
theorem C08_tolerance_close {error : ℝ} {solver : TolerantLineSolver error} {height : V3 → Option ℝ}
    {o u q q' : V3} {slope : ℝ}
    (hslope : ∀ p p' z z', height p = some z → height p' = some z' →
      |z - z'| ≤ slope * Real.sqrt ((p.x - p'.x) ^ 2 + (p.y - p'.y) ^ 2))
    (hu : slope * Real.sqrt (u.x ^ 2 + u.y ^ 2) < |u.z|)
    (h : solvedInterceptFound solver.find height o u = some q) (h1 : OnLine o u q') (h2 : OnGraph height q') :
    ∃ s : ℝ, q = q' + s • u ∧ |s| ≤ error / (|u.z| - slope * Real.sqrt (u.x ^ 2 + u.y ^ 2)) := by
  obtain ⟨⟨t, rfl⟩, z, hz, hle⟩ := C08_tolerance h
  obtain ⟨t', rfl⟩ := h1
  refine ⟨t - t', by ext <;> simp <;> ring, ?_⟩
  rw [le_div_iff₀ (by linarith)]
  have key := hslope _ _ _ _ hz h2
  simp only [add_x, add_y, add_z, smul_x, smul_y, smul_z] at key hle
  have e1 : (o.x + t * u.x - (o.x + t' * u.x)) ^ 2 + (o.y + t * u.y - (o.y + t' * u.y)) ^ 2
      = (t - t') ^ 2 * (u.x ^ 2 + u.y ^ 2) := by ring
  rw [e1, Real.sqrt_mul (sq_nonneg _), Real.sqrt_sq_eq_abs] at key
  have e2 : (t - t') * u.z = (o.z + t * u.z - z) + (z - (o.z + t' * u.z)) := by ring
  have e3 : |t - t'| * |u.z| ≤ error + slope * (|t - t'| * Real.sqrt (u.x ^ 2 + u.y ^ 2)) := by
    rw [← abs_mul, e2]
    exact (abs_add_le _ _).trans (add_le_add hle key)
  nlinarith

/-- Non-vacuity of `C08_tolerance_close`: an iteration that stops 1/100 above an inclined plane. -/
example : ∃ solver : TolerantLineSolver (1 / 100), ∃ q,
    solvedInterceptFound solver.find (fun p => some (p.x / 2)) ⟨2, 0, -3⟩ ⟨0, 0, 1⟩ = some q ∧ q ≠ ⟨2, 0, 1⟩ := by
  classical
  refine ⟨⟨fun f _ => if f (401 / 100) = some (1 / 100) then some (401 / 100) else none, ?_⟩,
    ⟨2, 0, 101 / 100⟩, ?_, ?_⟩
  · intro f guess t h
    split at h
    · rename_i hf
      simp only [Option.some.injEq] at h
      subst h
      exact ⟨_, hf, by rw [abs_of_pos] <;> norm_num⟩
    · exact absurd h (by simp)
  · unfold solvedInterceptFound
    simp only [Option.bind_eq_bind, Option.bind_some, Option.pure_def]
    rw [if_pos (by simp; norm_num)]
    simp only [Option.bind_some, Option.some.injEq]
    ext <;> norm_num
  · intro h
    have := congrArg V3.z h
    norm_num at this

/-- The ray arrives at the surface with index `k` with coordinates that differ from the given ones by at
most `ε`. -/
def StrikesNear (all : List Surface) (k : ℕ) (grid : V2) (ε : ℝ) (r : Ray) : Prop :=
  ∃ grid' : V2, |grid'.x - grid.x| ≤ ε ∧ |grid'.y - grid.y| ≤ ε ∧ Strikes all k grid' r

/-- Rays that are found with a tolerance are found exactly for a point of the border of the last stop
that is moved by less than the tolerance. -/
theorem stopRays_tolerant {ε : ℝ} (finder : TolerantFinder ε) {guess : V2} {w : ℝ} {all : List Surface}
    {i j : ℕ} {gridFirst gridLast : V2} {T : Option Rigid} {r : Ray}
    (h : stopRaysFound finder.find guess w all i j gridFirst gridLast T = some r) :
    ∃ solver : RootFinder, ∃ grid' : V2, |grid'.x - gridLast.x| ≤ ε ∧ |grid'.y - gridLast.y| ≤ ε ∧
      stopRays solver guess w all i j gridFirst grid' T = some r := by
  classical
  have h' := h
  unfold stopRaysFound at h'
  obtain ⟨ρ, hρ, -⟩ := Option.bind_eq_some_iff.1 h'
  unfold stopRaysOnlyFound at hρ
  simp only [Option.bind_eq_bind, Option.bind_eq_some_iff] at hρ
  obtain ⟨first, h1, last, h2, apf, h3, apl, h4, a, ha, hr⟩ := hρ
  obtain ⟨e, he, ex, ey⟩ := finder.close _ _ _ ha
  refine ⟨⟨fun f _ => if f a = some ⟨0, 0⟩ then some a else none, ?_⟩,
    ⟨gridLast.x + e.x, gridLast.y + e.y⟩, by simpa using ex, by simpa using ey, ?_⟩
  · intro f g b hb
    split at hb
    · rename_i hf; simp only [Option.some.injEq] at hb; subst hb; exact hf
    · exact absurd hb (by simp)
  · rw [← h]
    have hroot : rayError w first apf.unit gridFirst ((all.take (j + 1)).drop (i + 1)) last apl.unit
        ⟨gridLast.x + e.x, gridLast.y + e.y⟩ a = some ⟨0, 0⟩ := by
      simp only [rayError, Option.bind_eq_bind, Option.bind_eq_some_iff, Option.pure_def,
        Option.some.injEq] at he ⊢
      obtain ⟨r1, k1, r2, k2, c, k3, rfl⟩ := he
      exact ⟨r1, k1, r2, k2, c, k3, by simp⟩
    have hroot' : (if rayError w first apf.unit gridFirst ((all.take (j + 1)).drop (i + 1)) last apl.unit
        ⟨gridLast.x + e.x, gridLast.y + e.y⟩ a = some ⟨0, 0⟩ then some a else none) = some a := if_pos hroot
    unfold stopRays stopRaysFound stopRaysOnlyFound
    simp only [Option.bind_eq_bind, h1, h2, h3, h4, Option.bind_some, ha, hroot']

/-- Conversely, a ray that is exact for a point that is moved by less than the tolerance can be found. -/
theorem tolerant_of_exact {ε : ℝ} {solver : RootFinder} {guess : V2} {w : ℝ} {all : List Surface}
    {i j : ℕ} {gridFirst gridLast grid' : V2} {T : Option Rigid} {r : Ray}
    (h1 : |grid'.x - gridLast.x| ≤ ε) (h2 : |grid'.y - gridLast.y| ≤ ε)
    (h : stopRays solver guess w all i j gridFirst grid' T = some r) :
    ∃ finder : TolerantFinder ε, stopRaysFound finder.find guess w all i j gridFirst gridLast T = some r := by
  classical
  have h' := h
  unfold stopRays stopRaysFound at h'
  obtain ⟨ρ, hρ, -⟩ := Option.bind_eq_some_iff.1 h'
  unfold stopRaysOnlyFound at hρ
  simp only [Option.bind_eq_bind, Option.bind_eq_some_iff] at hρ
  obtain ⟨first, k1, last, k2, apf, k3, apl, k4, a, ha, hr⟩ := hρ
  have he := solver.root _ _ _ ha
  refine ⟨⟨fun f _ => if f a = some ⟨grid'.x - gridLast.x, grid'.y - gridLast.y⟩ then some a else none, ?_⟩, ?_⟩
  · intro f g b hb
    split at hb
    · rename_i hf; simp only [Option.some.injEq] at hb; subst hb; exact ⟨_, hf, h1, h2⟩
    · exact absurd hb (by simp)
  · rw [← h]
    have hroot : rayError w first apf.unit gridFirst ((all.take (j + 1)).drop (i + 1)) last apl.unit
        gridLast a = some ⟨grid'.x - gridLast.x, grid'.y - gridLast.y⟩ := by
      simp only [rayError, Option.bind_eq_bind, Option.bind_eq_some_iff, Option.pure_def,
        Option.some.injEq, V2.mk.injEq] at he ⊢
      obtain ⟨r1, m1, r2, m2, c, m3, m4, m5⟩ := he
      exact ⟨r1, m1, r2, m2, c, m3, by linarith, by linarith⟩
    have hroot' : (if rayError w first apf.unit gridFirst ((all.take (j + 1)).drop (i + 1)) last apl.unit
        gridLast a = some ⟨grid'.x - gridLast.x, grid'.y - gridLast.y⟩ then some a else none) = some a :=
      if_pos hroot
    unfold stopRays stopRaysFound stopRaysOnlyFound
    simp only [Option.bind_eq_bind, k1, k2, k3, k4, Option.bind_some, ha, hroot']

/-- Non-vacuity of the theorems below: a ray that misses the given point of the second of two planes by
1/20 and is accepted with a tolerance of 1/10. -/
example : ∃ finder : TolerantFinder (1 / 10), ∃ r,
    stopRaysFound finder.find ⟨3 / 5, 0⟩ 1 [openPlane 0, openPlane ⟨0, 0, 1⟩] 0 1 ⟨0, 0⟩ ⟨7 / 10, 0⟩ none
      = some r ∧ StrikesNear [openPlane 0, openPlane ⟨0, 0, 1⟩] 1 ⟨7 / 10, 0⟩ (1 / 10) r := by
  obtain ⟨b, hb⟩ := openPlanes_stopRays none
  have h := C68_object_partial checkingSolver ⟨3 / 5, 0⟩ 1 (openPlane 0) [] (openPlane ⟨0, 0, 1⟩) []
    ⟨0, 0⟩ ⟨3 / 4, 0⟩ none _ (openPlane_fold 0) rfl
    (by simpa using openPlane_blind ⟨0, 0, 1⟩)
    (by
      intro ap hap
      simp only [openPlane, Option.some.injEq] at hap
      subst hap
      exact Or.inl ⟨rfl, translation_ivec _ _⟩) hb
  have e1 : |(3 / 4 : ℝ) - 7 / 10| ≤ 1 / 10 := by rw [abs_of_pos] <;> norm_num
  have e2 : |(0 : ℝ) - 0| ≤ 1 / 10 := by norm_num
  obtain ⟨finder, hf⟩ := tolerant_of_exact (ε := 1 / 10) (gridLast := ⟨7 / 10, 0⟩) e1 e2 hb
  exact ⟨finder, _, hf, ⟨3 / 4, 0⟩, e1, e2, h.2.1⟩

/-- **C68** with an iteration that stops at residuals up to `max_abs_error`, if the object is a plane and
one of the stops: the rays of the stops strike the given point of the border of the first stop exactly,
and that of the last stop up to `max_abs_error`.
(Partial as `C68_object_partial`.) -/
theorem C68_tolerance_object_partial {ε : ℝ} (finder : TolerantFinder ε) (guess : V2) (w : ℝ) (obj : Surface)
    (mid : List Surface) (last : Surface) (post : List Surface) (gridFirst gridLast : V2)
    (T : Option Rigid) (r : Ray)
    (hobj : Fold obj) (hvac : obj.material = vacuum)
    (hblind : ∀ s ∈ mid ++ [last], FlagBlind s)
    (hap : ∀ ap, obj.aperture = some ap →
      (ap.unit = .length ∧ obj.frame.ivec ⟨0, 0, 1⟩ = ⟨0, 0, 1⟩) ∨
      (ap.unit = .dimensionless ∧ (obj.transformation = none ∨
        ∀ s, (mid ++ [last]).head? = some s → LineSag s.sag)))
    (h : stopRaysFound finder.find guess w (obj :: (mid ++ last :: post)) 0 (mid.length + 1)
      gridFirst gridLast T = some r) :
    let start : Ray := T.elim r fun g => r.unmove g
    Strikes (obj :: (mid ++ last :: post)) 0 gridFirst start ∧
    StrikesNear (obj :: (mid ++ last :: post)) (mid.length + 1) gridLast ε start ∧
    (obj.frame.ipoint start.position).z = 0 ∧ 0 < (obj.frame.ivec start.direction).z ∧
    start.wavelength = w ∧ start.intensity = 1 ∧ Free start := by
  obtain ⟨solver, grid', e1, e2, h'⟩ := stopRays_tolerant finder h
  obtain ⟨k1, k2, k3⟩ := C68_object_partial solver guess w obj mid last post gridFirst grid' T r hobj hvac
    hblind hap h'
  exact ⟨k1, ⟨grid', e1, e2, k2⟩, k3⟩

/-- **C68** with an iteration that stops at residuals up to `max_abs_error`, if the surfaces before the
first stop are plane mirrors or windows.
(Partial as `C68_folded_partial`.) -/
theorem C68_tolerance_folded_partial {ε : ℝ} (finder : TolerantFinder ε) (guess : V2) (w : ℝ)
    (init : List Surface) (first : Surface) (mid : List Surface) (last : Surface) (post : List Surface)
    (gridFirst gridLast : V2) (T : Option Rigid) (r : Ray)
    (hfold : ∀ s ∈ init ++ [first], Fold s)
    (hrev : ∀ s ∈ mid ++ [last], Reversible s) (hblind : ∀ s ∈ mid ++ [last], FlagBlind s)
    (hap : ∀ s, s = first ∨ s = last → ∀ ap, s.aperture = some ap → ap.unit = .length)
    (h : stopRaysFound finder.find guess w (init ++ first :: (mid ++ last :: post)) init.length
      (init.length + 1 + mid.length) gridFirst gridLast T = some r) :
    let start : Ray := T.elim r fun g => r.unmove g
    Strikes (init ++ first :: (mid ++ last :: post)) init.length gridFirst start ∧
    StrikesNear (init ++ first :: (mid ++ last :: post)) (init.length + 1 + mid.length) gridLast ε start := by
  obtain ⟨solver, grid', e1, e2, h'⟩ := stopRays_tolerant finder h
  obtain ⟨k1, k2⟩ := C68_folded_partial solver guess w init first mid last post gridFirst grid' T r hfold
    hrev hblind hap h'
  exact ⟨k1, ⟨grid', e1, e2, k2⟩⟩

/-- **C69** with an iteration that stops at residuals up to `max_abs_error`: the input ray for the field
and pupil coordinates of a ray of the stops strikes the same points of the borders of the stops, the last
one up to `max_abs_error`.
(Partial as `C69_reproduce_partial`.) -/
theorem C69_tolerance_partial {ε : ℝ} (finder : TolerantFinder ε) (s : System) (guess : V2) (w : ℝ)
    (obj : Surface) (mid : List Surface) (last : Surface) (post : List Surface) (gridFirst gridLast : V2)
    (r : Ray) (hall : s.all = some (obj :: (mid ++ last :: post)))
    (hobj : Fold obj) (hvac : obj.material = vacuum) (htr : obj.transformation = none)
    (hT : s.transformation = none) (hblind : ∀ x ∈ mid ++ [last], FlagBlind x)
    (h : stopRaysFound finder.find guess w (obj :: (mid ++ last :: post)) 0 (mid.length + 1)
      gridFirst gridLast s.transformation = some r) :
    ∃ g, stopCoordinates s.objectAtInfinity r = some g ∧ g.wavelength = w ∧
      ∃ r', s.calcInput g false false = some r' ∧
        Strikes (obj :: (mid ++ last :: post)) 0 gridFirst r' ∧
        StrikesNear (obj :: (mid ++ last :: post)) (mid.length + 1) gridLast ε r' := by
  obtain ⟨solver, grid', e1, e2, h'⟩ := stopRays_tolerant finder h
  obtain ⟨g, k1, k2, r', k3, k4, k5⟩ := C69_reproduce_partial s solver guess w obj mid last post gridFirst
    grid' r hall hobj hvac htr hT hblind h'
  exact ⟨g, k1, k2, r', k3, k4, grid', e1, e2, k5⟩

end Optika
