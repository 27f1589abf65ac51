import Verif.Model.SolvedSag
import Verif.Lemmas.Sags
import Verif.Spec.Surface

/-!
# C08 and C10 for sags whose intercept is solved for
-/

namespace Optika
open V3

/-- **C10**: the torus is the surface of revolution it is documented to be: the circular arc of radius
`radius` through the origin in the plane `x = 0`, rotated around the line parallel to `y` at `z = r`;
the half below that line. -/
theorem C10_torus_revolution {radius r : ℝ} {q : V3} :
    OnGraph (torusHeight radius r) q ↔
      ∃ zy, OnGraph (sphereHeight radius) ⟨0, q.y, zy⟩ ∧
        q.x ^ 2 + (q.z - r) ^ 2 = (zy - r) ^ 2 ∧ q.z ≤ r := by
  unfold OnGraph torusHeight sphereHeight
  simp only [Option.bind_eq_bind, Option.bind_eq_some_iff, Option.pure_def, Option.some.injEq]
  constructor
  · rintro ⟨c, hc, s, hs, zy, hzy, f, hf, hz⟩
    refine ⟨zy, ⟨c, hc, s, ?_, by simpa using hzy⟩, ?_, ?_⟩
    · simpa using hs
    · obtain ⟨h1, rfl⟩ := sqrt?_eq_some.1 hf
      have := Real.sq_sqrt h1
      rw [← hz]; linear_combination this
    · obtain ⟨h1, rfl⟩ := sqrt?_eq_some.1 hf
      rw [← hz]; linarith [Real.sqrt_nonneg ((r - zy) ^ 2 - q.x ^ 2)]
  · rintro ⟨zy, ⟨c, hc, s, hs, hzy⟩, h1, h2⟩
    refine ⟨c, hc, s, by simpa using hs, zy, by simpa using hzy, r - q.z, ?_, by ring⟩
    have e : (r - zy) ^ 2 - q.x ^ 2 = (r - q.z) ^ 2 := by linear_combination -h1
    rw [e, sqrt?_of_nonneg (sq_nonneg _), Real.sqrt_sq (by linarith)]

/-- Non-vacuity of `C10_torus_revolution`: a point off both symmetry planes. -/
example : OnGraph (torusHeight 5 14) ⟨5, 3, 2⟩ := by
  rw [C10_torus_revolution]
  refine ⟨1, ?_, by norm_num, by norm_num⟩
  rw [onGraph_sphere]; norm_num

/-- **C08**, sags that inherit the intercept: if the iteration converges, the result lies on the ray and
on the surface that `__call__` describes. -/
theorem C08_solved_partial {solver : LineSolver} {height : V3 → Option ℝ} {o u q : V3}
    (h : solvedIntercept solver height o u = some q) : OnLine o u q ∧ OnGraph height q := by
  unfold solvedIntercept solvedInterceptFound at h
  simp only [Option.bind_eq_bind, Option.bind_eq_some_iff, Option.pure_def, Option.some.injEq] at h
  obtain ⟨t, ht, rfl⟩ := h
  have := solver.root _ _ _ ht
  simp only [Option.bind_eq_some_iff, Option.some.injEq] at this
  obtain ⟨z, hz, h0⟩ := this
  refine ⟨⟨t, rfl⟩, ?_⟩
  unfold OnGraph
  rw [hz, show z = (o + t • u).z by linarith]

/-- **C08**, sags that inherit the intercept: if the ray is steeper than the surface, there is only one
point where they meet, so that the result does not depend on the iteration. -/
theorem C08_solved_unique {solver : LineSolver} {height : V3 → Option ℝ} {o u q : V3} {slope : ℝ}
    (hslope : ∀ p p' z z', height p = some z → height p' = some z' →
      |z - z'| ≤ slope * Real.sqrt ((p.x - p'.x) ^ 2 + (p.y - p'.y) ^ 2))
    (hu : slope * Real.sqrt (u.x ^ 2 + u.y ^ 2) < |u.z|)
    (h : solvedIntercept solver height o u = some q) :
    ∀ q', OnLine o u q' → OnGraph height q' → q' = q := by
  obtain ⟨⟨t, rfl⟩, hq⟩ := C08_solved_partial h
  rintro q' ⟨t', rfl⟩ hq'
  have key := hslope _ _ _ _ hq' hq
  simp only [add_x, add_y, add_z, smul_x, smul_y, smul_z] at key
  have e1 : (o.x + t' * u.x - (o.x + t * u.x)) ^ 2 + (o.y + t' * u.y - (o.y + t * u.y)) ^ 2
      = (t' - t) ^ 2 * (u.x ^ 2 + u.y ^ 2) := by ring
  have e2 : o.z + t' * u.z - (o.z + t * u.z) = (t' - t) * u.z := by ring
  rw [e1, e2, abs_mul, Real.sqrt_mul (sq_nonneg _), Real.sqrt_sq_eq_abs] at key
  have : t' = t := by
    by_contra hne
    have hpos : 0 < |t' - t| := abs_pos.2 (sub_ne_zero.2 hne)
    nlinarith [mul_lt_mul_of_pos_left hu hpos]
  rw [this]

/-- **C08**, torus without a transformation: if the iteration converges, the result lies on the ray and
on the torus. -/
theorem C08_torus_partial {solver : LineSolver} {radius r : ℝ} {o u q : V3}
    (h : (torusSag solver radius r none).intercept o u = some q) :
    OnLine o u q ∧ OnGraph (torusHeight radius r) q := C08_solved_partial h

/-- An iteration that finds a root whenever there is one. -/
noncomputable def completeSolver : LineSolver where
  find f _ := open Classical in if h : ∃ t, f t = some 0 then some h.choose else none
  root f guess t h := by
    split at h
    · rename_i hex
      simp only [Option.some.injEq] at h
      rw [← h]; exact hex.choose_spec
    · simp at h

/-- Such an iteration finds an intercept if there is one. -/
theorem solvedIntercept_complete {height : V3 → Option ℝ} {o u q : V3} (h1 : OnLine o u q)
    (h2 : OnGraph height q) : ∃ q', solvedIntercept completeSolver height o u = some q' := by
  obtain ⟨t, rfl⟩ := h1
  have hex : ∃ t : ℝ, (do
      let z ← height (o + t • u)
      return (o + t • u).z - z : Option ℝ) = some 0 := by
    refine ⟨t, ?_⟩
    have h2 : height (o + t • u) = some (o + t • u).z := h2
    rw [h2]; simp
  unfold solvedIntercept solvedInterceptFound completeSolver
  simp only
  rw [dif_pos hex]
  exact ⟨_, rfl⟩

/-- Non-vacuity of `C08_torus_partial`. -/
example : ∃ q, (torusSag completeSolver 5 14 none).intercept ⟨5, 3, -7⟩ ⟨0, 0, 1⟩ = some q ∧
    q = ⟨5, 3, 2⟩ := by
  have hon : OnGraph (torusHeight 5 14) ⟨5, 3, 2⟩ := by
    rw [C10_torus_revolution]
    refine ⟨1, ?_, by norm_num, by norm_num⟩
    rw [onGraph_sphere]; norm_num
  obtain ⟨q, hq⟩ := solvedIntercept_complete (o := ⟨5, 3, -7⟩) (u := ⟨0, 0, 1⟩) (q := ⟨5, 3, 2⟩)
    ⟨9, by ext <;> norm_num⟩ hon
  refine ⟨q, hq, ?_⟩
  obtain ⟨⟨t, rfl⟩, h2⟩ := C08_solved_partial hq
  have h3 : torusHeight 5 14 ((⟨5, 3, -7⟩ : V3) + t • ⟨0, 0, 1⟩) = some 2 := by
    have e : torusHeight 5 14 ((⟨5, 3, -7⟩ : V3) + t • ⟨0, 0, 1⟩) = torusHeight 5 14 ⟨5, 3, 2⟩ := by
      unfold torusHeight; simp
    rw [e]; exact hon
  unfold OnGraph at h2
  rw [h3] at h2
  simp only [add_z, smul_z, Option.some.injEq] at h2
  ext <;> simp
  linarith

/-- Disagreement with C08: the toroidal sag cannot be moved along `z`. The other curved sags map the ray
to their local frame (`C08_transformed`), the inherited intercept compares the position of the ray with
the height in the local frame; whichever point the iteration finds, it is not on the moved torus. -/
theorem C08_torus_moved_counterexample {solver : LineSolver} {radius r d : ℝ} (hd : d ≠ 0) {o u q : V3}
    (h : (torusSag solver radius r (some (.translation ⟨0, 0, d⟩))).intercept o u = some q) :
    OnGraph (torusHeight radius r) q ∧
      ¬ OnGraph (torusHeight radius r) ((Rigid.translation ⟨0, 0, d⟩).ipoint q) := by
  have hip : (Rigid.translation ⟨0, 0, d⟩).ipoint q = ⟨q.x, q.y, q.z - d⟩ := by
    apply V3.ext <;> simp [Rigid.ipoint, Rigid.translation, Rigid.id, M3.one, M3.mulVec,
      M3.transpose, dot]
  have h : solvedIntercept solver
    (fun p => torusHeight radius r ((Rigid.translation ⟨0, 0, d⟩).ipoint p)) o u = some q := h
  have h2 : torusHeight radius r ((Rigid.translation ⟨0, 0, d⟩).ipoint q) = some q.z :=
    (C08_solved_partial h).2
  have h3 : torusHeight radius r q = some q.z := by
    rw [hip] at h2; exact h2
  refine ⟨h3, ?_⟩
  unfold OnGraph
  rw [h2, hip]
  simp only [Option.some.injEq]
  intro h4
  exact hd (by linarith)

/-- Non-vacuity of `C08_torus_moved_counterexample`: the vertex of a torus moved by one unit. -/
example : ∃ q, (torusSag completeSolver 5 14 (some (.translation ⟨0, 0, 1⟩))).intercept
    ⟨0, 0, -3⟩ ⟨0, 0, 1⟩ = some q := by
  show ∃ q, solvedIntercept completeSolver
    (fun p => torusHeight 5 14 ((Rigid.translation ⟨0, 0, 1⟩).ipoint p)) ⟨0, 0, -3⟩ ⟨0, 0, 1⟩ = some q
  refine solvedIntercept_complete (o := ⟨0, 0, -3⟩) (u := ⟨0, 0, 1⟩) (q := ⟨0, 0, 0⟩) ⟨3, by ext <;> norm_num⟩ ?_
  have hip : (Rigid.translation ⟨0, 0, 1⟩).ipoint ⟨0, 0, 0⟩ = ⟨0, 0, -1⟩ := by
    apply V3.ext <;> simp [Rigid.ipoint, Rigid.translation, Rigid.id, M3.one, M3.mulVec,
      M3.transpose, dot]
  show torusHeight 5 14 ((Rigid.translation ⟨0, 0, 1⟩).ipoint ⟨0, 0, 0⟩) = some 0
  rw [hip]
  have : OnGraph (torusHeight 5 14) ⟨0, 0, 0⟩ := by
    rw [C10_torus_revolution]
    refine ⟨0, ?_, by norm_num, by norm_num⟩
    rw [onGraph_sphere]; norm_num
  exact this

/-- **C10**: height and normal of a torus that is moved are those of the torus at the position seen from
the moved frame. -/
theorem C10_torus_transformed (solver : LineSolver) (radius r : ℝ) (g : Rigid) (p : V3) :
    (torusSag solver radius r (some g)).height (g.point p) = torusHeight radius r p
      ∧ (torusSag solver radius r (some g)).normal (g.point p) = torusNormal radius r p := by
  simp [torusSag]

end Optika
