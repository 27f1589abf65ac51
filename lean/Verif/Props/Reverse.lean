import Verif.Props.Lines
import Verif.Props.SurfaceOptics

/-!
# C86: rays can be followed backwards

The ray that leaves a system of refracting and reflecting surfaces is turned around and sent through the
surfaces in reverse order.  It strikes the same points in reverse order and arrives on the line of the
ray that entered.
-/

namespace Optika
open V3

/-- The ray that runs the other way. -/
def Ray.turned (r : Ray) : Ray := { r with direction := -r.direction }

/-- The material of a surface that is passed backwards: beyond it there is the medium of index `n` that
the ray came from. -/
noncomputable def medium (n : ℝ) (isMirror : Bool) : Material where
  index _ := some n
  attenuation _ := some 0
  efficiency _ _ := some 1
  isMirror := isMirror

/-- A surface that is passed backwards into the medium of index `n`.  The code counts the orders of
rulings from the side from which the light comes, so that light that passes rulings backwards has the
opposite order, unless it is reflected. -/
noncomputable def Surface.backward (s : Surface) (n : ℝ) : Surface :=
  { s with
    material := medium n s.material.isMirror
    rulings := s.rulings.map fun ru =>
      { ru with order := if s.material.isMirror then ru.order else -ru.order } }

/-- Rulings that can be passed both ways: the index is the same on both sides, the efficiency is
defined, and the rulings are perpendicular to the surface where the ray strikes. -/
def RulesBothWays (s : Surface) (r out : Ray) : Prop :=
  ∀ ru, s.rulings = some ru → out.index = r.index ∧ (∀ r' n, ∃ e, ru.efficiency r' n = some e) ∧
    ∀ n, s.sag.normal (s.frame.ipoint out.position) = some n →
      ∃ (d : ℝ) (g : V3), ru.spacing (s.frame.ipoint out.position) n = some (d • g) ∧ d ≠ 0 ∧ g.dot n = 0
        ∧ g.dot g = 1

theorem RulesBothWays.plain {s : Surface} (h : s.rulings = none) (r out : Ray) : RulesBothWays s r out := by
  intro ru hr
  rw [h] at hr
  exact absurd hr (by simp)

/-- The surfaces that the ray `r` passes, in reverse order, each followed by the medium that precedes it on
the way of `r`. -/
noncomputable def backwardSystem : List Surface → Ray → List Surface
  | [], _ => []
  | s :: ss, r =>
    match s.propagate r with
    | none => []
    | some mid => backwardSystem ss mid ++ [s.backward r.index]

/-- The points that a ray strikes, in their order. -/
noncomputable def pointsStruck : List Surface → Ray → List V3
  | [], _ => []
  | s :: ss, r =>
    match s.propagate r with
    | none => []
    | some mid => mid.position :: pointsStruck ss mid

/-- What a surface has to be like for a ray `r` that becomes `out`: with no rulings or such that can be passed
both ways, with an aperture that limits positions, of positive indices, struck at an angle that is not grazing, and at the point where
the line of the ray that leaves strikes it, from wherever on the line it is followed back. -/
structure TwoWay (s : Surface) (r out : Ray) : Prop where
  rules : RulesBothWays s r out
  clips : ∀ a, s.aperture = some a → a.unit = .length
  straight : ∀ o u q, s.sag.intercept o u = some q → OnLine o u q
  again : ∀ t : ℝ, s.sag.intercept (s.frame.ipoint out.position + t • s.frame.ivec out.direction)
    (-s.frame.ivec out.direction) = some (s.frame.ipoint out.position)
  normal : ∀ n, s.sag.normal (s.frame.ipoint out.position) = some n →
    n.dot n = 1 ∧ (s.frame.ivec r.direction).dot n ≠ 0 ∧ (s.frame.ivec out.direction).dot n ≠ 0
  before : 0 < r.index
  after : 0 < out.index
  mirror : s.material.isMirror = true → out.index = r.index

/-- All surfaces are so for the ray that strikes them. -/
def AllTwoWay : List Surface → Ray → Prop
  | [], _ => True
  | s :: ss, r => ∀ mid, s.propagate r = some mid → TwoWay s r mid ∧ AllTwoWay ss mid

theorem ivec_neg (g : Rigid) (v : V3) : g.ivec (-v) = -g.ivec v := by
  have := M3.mulVec_smul g.rot.transpose (-1) v
  have h1 : (-1 : ℝ) • v = -v := by vring
  have h2 : (-1 : ℝ) • g.rot.transpose.mulVec v = -g.rot.transpose.mulVec v := by vring
  rw [h1, h2] at this
  exact this

theorem vec_neg (g : Rigid) (v : V3) : g.vec (-v) = -g.vec v := by
  have := M3.mulVec_smul g.rot (-1) v
  have h1 : (-1 : ℝ) • v = -v := by vring
  have h2 : (-1 : ℝ) • g.rot.mulVec v = -g.rot.mulVec v := by vring
  rw [h1, h2] at this
  exact this

/-- One surface, passed backwards. -/
theorem backward_step {s : Surface} {r out back : Ray} (h : s.propagate r = some out)
    (hw : TwoWay s r out) (hu : r.direction.dot r.direction = 1)
    (hd : back.direction = -out.direction) (hi : back.index = out.index)
    (hwl : back.wavelength = out.wavelength)
    (hp : OnLine out.position out.direction back.position)
    (hv : back.unvignetted = true → out.unvignetted = true) :
    ∃ b, (s.backward r.index).propagate back = some b ∧ b.direction = -r.direction ∧
      b.index = r.index ∧ b.wavelength = r.wavelength ∧ b.position = out.position ∧
      OnLine r.position r.direction b.position ∧ b.unvignetted = back.unvignetted ∧
      out.direction.dot out.direction = 1 := by
  have hv' := (C14_one_surface h).1
  have hu' : (s.frame.ivec r.direction).dot (s.frame.ivec r.direction) = 1 := by
    rw [Rigid.ivec_dot_ivec]; exact hu
  have hwave : out.wavelength = r.wavelength * out.index / r.index := by
    have h := h
    rw [Surface.propagate_eq] at h
    simp only [Option.map_eq_some_iff] at h
    obtain ⟨o, ho, rfl⟩ := h
    obtain ⟨q, normal, r1, n2, b, e1, e2, att, hq, hn, heff, hp, hw, hi', ha, hv, hI, hn2, -, hr0, hb,
      he1, he2, hatt, ow, op, od, oI, oa, oi, -⟩ := propagateLocal_eq_some ho
    show o.wavelength = _
    rw [ow, ← oi]; rfl
  -- the law of refraction or the grating equation backwards
  obtain ⟨n, hn, hback, hb1⟩ : ∃ n, s.sag.normal (s.frame.ipoint out.position) = some n ∧
      (∀ r0 : Ray, r0.position = s.frame.ipoint out.position →
        r0.direction = -(s.frame.ivec out.direction) → r0.index = out.index →
        r0.wavelength = out.wavelength →
        ∃ k e, (s.backward r.index).effectiveRay r0 n = some { r0 with direction := k } ∧
          snellsLaw k out.index r.index s.material.isMirror n = some (-(s.frame.ivec r.direction)) ∧
          (s.backward r.index).rulingFactor { r0 with direction := k } n = some e) ∧
      (s.frame.ivec out.direction).dot (s.frame.ivec out.direction) = 1 := by
    cases hru : s.rulings with
    | none =>
      obtain ⟨n, hn, hsn⟩ := surface_plain h hru
      obtain ⟨hn1, han, hbn⟩ := hw.normal n hn
      have hbr : (s.backward r.index).rulings = none := by simp [Surface.backward, hru]
      have hback : snellsLaw (-(s.frame.ivec out.direction)) out.index r.index s.material.isMirror n
          = some (-(s.frame.ivec r.direction)) ∧
          (s.frame.ivec out.direction).dot (s.frame.ivec out.direction) = 1 := by
        cases hm : s.material.isMirror with
        | true =>
          have hidx := hw.mirror hm
          rw [hm, hidx] at hsn
          rw [hidx]
          exact ⟨C04_reversible_mirror hu' hn1 hw.before.ne' hsn,
            (C02_reflection_consequences hu' hn1 hw.before.ne' hsn).1⟩
        | false =>
          rw [hm] at hsn
          obtain ⟨h1, -, h3, -⟩ := C01_refraction hu' hn1 hw.before hw.after han hsn
          refine ⟨C04_reversible hu' hn1 hw.before hw.after han hsn ?_, h1⟩
          rw [← h3]
          have : 0 < ((s.frame.ivec out.direction).dot n) ^ 2 := by positivity
          have := mul_pos (pow_pos hw.after 2) this
          linarith
      refine ⟨n, hn, fun r0 h1 h2 h3 h4 => ⟨-(s.frame.ivec out.direction), 1, ?_, hback.1, ?_⟩,
        hback.2⟩
      · simp only [Surface.effectiveRay, hbr]
        rw [← h2]
      · simp only [Surface.rulingFactor, hbr]
    | some ru =>
      obtain ⟨hidx, heff, hsp⟩ := hw.rules ru hru
      obtain ⟨n, hn, hsn⟩ := surface_ruled h hru
      obtain ⟨hn1, han, hbn⟩ := hw.normal n hn
      obtain ⟨d, g, hd, hd0, hgn, hg1⟩ := hsp n hn
      have hwl' : out.wavelength = r.wavelength := by
        rw [hwave, hidx, mul_div_assoc, div_self hw.before.ne', mul_one]
      rw [hd] at hsn
      obtain ⟨⟨p1, p2⟩, p3⟩ := (ruled_iff s.material.isMirror hn1 hgn hg1 hw.before hw.after hd0 han _).1 hsn
      have hbr : (s.backward r.index).rulings = some
          { ru with order := if s.material.isMirror then ru.order else -ru.order } := by
        simp [Surface.backward, hru]
      set a := s.frame.ivec r.direction with ha
      set b := s.frame.ivec out.direction with hb
      have hbind : ((rulingsIncidentEffective (some (d • g))
          (if s.material.isMirror then ru.order else -ru.order) out.wavelength (-b) out.index n).bind
            fun k => snellsLaw k out.index r.index s.material.isMirror n) = some (-a) := by
        have hneg : ∀ v : V3, (-v).dot n = -(v.dot n) := fun v => by simp only [dot]; vsimp; ring
        rw [ruled_iff s.material.isMirror hn1 hgn hg1 hw.after hw.before hd0
          (by rw [hneg]; exact neg_ne_zero.2 hbn)]
        rw [hneg, hwl']
        rw [hidx] at p2 ⊢
        refine ⟨⟨?_, ?_⟩, ?_⟩
        · have : (-a).dot (-a) = a.dot a := by simp only [dot]; vsimp; ring
          rw [this]; exact hu'
        · have key : ∀ c c' : ℝ, c = c' → r.index • b.tang n = r.index • a.tang n + c • g →
              r.index • (-a).tang n = r.index • (-b).tang n + c' • g := by
            intro c c' hc h
            subst hc
            have hx := congrArg V3.x h
            have hy := congrArg V3.y h
            have hz := congrArg V3.z h
            simp only [tang, dot] at hx hy hz ⊢
            apply V3.ext
            · vsimp at hx ⊢; linarith
            · vsimp at hy ⊢; linarith
            · vsimp at hz ⊢; linarith
          refine key _ _ ?_ p2
          cases hm : s.material.isMirror with
          | true =>
            rw [hm] at p3
            simp only [if_true] at p3 ⊢
            have : a.dot n < 0 ↔ -(b.dot n) < 0 := by
              unfold OppositeSide at p3
              constructor
              · intro h
                by_contra hc
                have : b.dot n < 0 := lt_of_le_of_ne (by linarith) hbn
                nlinarith
              · intro h
                by_contra hc
                have : 0 < a.dot n := lt_of_le_of_ne (by linarith) (Ne.symm han)
                nlinarith
            simp only [this]
          | false =>
            rw [hm] at p3
            simp only [Bool.false_eq_true, if_false] at p3 ⊢
            unfold SameSide at p3
            rcases lt_or_gt_of_ne han with h | h
            · have h' : b.dot n < 0 := by
                by_contra hc
                have : 0 < b.dot n := lt_of_le_of_ne (by linarith) (Ne.symm hbn)
                nlinarith
              rw [if_pos h, if_neg (by linarith)]
              ring
            · have h' : 0 < b.dot n := by
                by_contra hc
                have : b.dot n < 0 := lt_of_le_of_ne (by linarith) hbn
                nlinarith
              rw [if_neg (by linarith), if_pos (by linarith)]
              ring
        · unfold OppositeSide SameSide at p3 ⊢
          rw [hneg, hneg]
          split_ifs at p3 ⊢ <;> linarith
      obtain ⟨k, hk, hkb⟩ := Option.bind_eq_some_iff.1 hbind
      have hfac : ∀ r1 : Ray, ∃ e, (s.backward r.index).rulingFactor r1 n = some e := fun r1 => by
        obtain ⟨e, he⟩ := heff r1 n
        exact ⟨e, by simp only [Surface.rulingFactor, hbr]; exact he⟩
      refine ⟨n, hn, fun r0 h1 h2 h3 h4 => ?_, p1⟩
      obtain ⟨e, he⟩ := hfac { r0 with direction := k }
      refine ⟨k, e, ?_, hkb, he⟩
      simp only [Surface.effectiveRay, hbr]
      rw [h1, h2, h3, h4, hd, hk]
      rfl
  obtain ⟨hn1, han, hbn⟩ := hw.normal n hn
  -- where it strikes
  have hq : s.sag.intercept (s.frame.ipoint back.position) (-(s.frame.ivec out.direction))
      = some (s.frame.ipoint out.position) := by
    obtain ⟨t, ht⟩ := hp
    rw [ht, Rigid.ipoint_add_smul]
    exact hw.again _
  -- the line of the ray that arrived
  have hline : OnLine r.position r.direction out.position := by
    have h := h
    rw [Surface.propagate_eq] at h
    simp only [Option.map_eq_some_iff] at h
    obtain ⟨o, ho, rfl⟩ := h
    obtain ⟨q, normal, r1, n2, b, e1, e2, att, hq, hn, heff, hp, hw', hi', ha, hv, hI, hn2, -, hr0, hb,
      he1, he2, hatt, ow, op, od, oI, oa, oi, -⟩ := propagateLocal_eq_some ho
    obtain ⟨t, ht⟩ := hw.straight _ _ _ hq
    refine ⟨t, ?_⟩
    show s.frame.point o.position = _
    rw [op, ht]
    show s.frame.point (s.frame.ipoint r.position + t • s.frame.ivec r.direction) = _
    rw [Rigid.point_add_smul, Rigid.point_ipoint, Rigid.vec_ivec]
  have hr0 := hw.before.ne'
  have ho0 := hw.after.ne'
  have hcl : ∀ r2 : Ray, r2.position = s.frame.ipoint out.position →
      r2.unvignetted = back.unvignetted → (s.backward r.index).clip r2 = some r2 := by
    intro r2 h1 h2
    unfold Surface.clip Surface.backward
    simp only
    cases ha : s.aperture with
    | none => rfl
    | some a =>
      have hl := hw.clips a ha
      simp only [Aperture.clip, hl, Option.some.injEq]
      cases hb : back.unvignetted with
      | false => rw [hb] at h2; cases r2; simp_all
      | true =>
        rw [hb] at h2
        have := (hv' (hv hb)).2 a ha
        rw [hl] at this
        simp only [true_and, reduceCtorEq, false_and, or_false] at this
        rw [h1, this]
        cases r2; simp_all
  have hfr : (s.backward r.index).frame = s.frame := rfl
  obtain ⟨k, e, heff, hsnell, hfac⟩ := hback
    { wavelength := back.wavelength, position := s.frame.ipoint out.position,
      direction := -(s.frame.ivec out.direction),
      intensity := Real.exp (-back.attenuation * (s.frame.ipoint out.position
        - s.frame.ipoint back.position).len) * back.intensity,
      attenuation := back.attenuation, index := out.index, unvignetted := back.unvignetted }
    rfl rfl rfl hwl
  refine ⟨Ray.move s.frame
    { wavelength := back.wavelength / (out.index / r.index), position := s.frame.ipoint out.position,
      direction := -(s.frame.ivec r.direction),
      intensity := Real.exp (-back.attenuation * (s.frame.ipoint out.position
        - s.frame.ipoint back.position).len) * back.intensity * (1 * e),
      attenuation := 0, index := r.index, unvignetted := back.unvignetted }, ?_, ?_, rfl, ?_, ?_, ?_, rfl,
      by rw [← Rigid.ivec_dot_ivec s.frame]; exact hb1⟩
  · rw [Surface.propagate_eq, hfr]
    unfold Surface.propagateLocal Sag.propagate Surface.interact
    have hdir : (back.unmove s.frame).direction = -(s.frame.ivec out.direction) := by
      show s.frame.ivec back.direction = _
      rw [hd, ivec_neg]
    have hpos : (back.unmove s.frame).position = s.frame.ipoint back.position := rfl
    have hsag : (s.backward r.index).sag = s.sag := rfl
    have hmat : (s.backward r.index).material = medium r.index s.material.isMirror := rfl
    have hidx : (back.unmove s.frame).index = out.index := hi
    have hwl' : (back.unmove s.frame).wavelength = back.wavelength := rfl
    have hat : (back.unmove s.frame).attenuation = back.attenuation := rfl
    have hin : (back.unmove s.frame).intensity = back.intensity := rfl
    have hun : (back.unmove s.frame).unvignetted = back.unvignetted := rfl
    rw [hsag, hdir, hpos, hq]
    simp only [Option.bind_eq_bind, Option.bind_some, Option.pure_def, hn, hmat, medium, hidx, hwl', hat,
      hin, hun]
    rw [heff]
    simp only [Option.bind_some]
    rw [div?_of_ne hr0, hsnell]
    simp only [Option.bind_some]
    rw [div?_of_ne (div_ne_zero ho0 hr0)]
    simp only [Option.bind_some, hfac]
    rw [hcl]
    · rfl
    · rfl
    · rfl
  · show s.frame.vec (-(s.frame.ivec r.direction)) = _
    rw [vec_neg, Rigid.vec_ivec]
  · show back.wavelength / (out.index / r.index) = _
    rw [hwl, hwave]; field_simp
  · show s.frame.point _ = _
    rw [Rigid.point_ipoint]
  · show OnLine _ _ (s.frame.point _)
    rw [Rigid.point_ipoint]; exact hline

/-- **C86**: a ray that passes a system of refracting and reflecting surfaces and is turned around passes
the surfaces in reverse order, strikes the same points in reverse order, and leaves on the line of the
original ray, in the opposite direction, with its wavelength, in its medium; it is vignetted on the way back
only if it was vignetted on the way there. -/
theorem C86_system_partial {ss : List Surface} {r out : Ray} (h : propagateSurfaces ss r = some out)
    (hw : AllTwoWay ss r) (hu : r.direction.dot r.direction = 1) :
    ∃ b, propagateSurfaces (backwardSystem ss r) out.turned = some b ∧
      OnLine r.position r.direction b.position ∧ b.direction = -r.direction ∧
      b.index = r.index ∧ b.wavelength = r.wavelength ∧ b.unvignetted = out.unvignetted ∧
      pointsStruck (backwardSystem ss r) out.turned = (pointsStruck ss r).reverse := by
  induction ss generalizing r with
  | nil =>
    rw [propagateSurfaces_nil, Option.some.injEq] at h
    subst h
    exact ⟨r.turned, propagateSurfaces_nil _, ⟨0, by show r.position = _; vring⟩, rfl, rfl, rfl, rfl, rfl⟩
  | cons s ss ih =>
    rw [propagateSurfaces_cons] at h
    simp only [Option.bind_eq_some_iff] at h
    obtain ⟨mid, h1, h2⟩ := h
    obtain ⟨hs, hss⟩ := hw mid h1
    have hmid : mid.direction.dot mid.direction = 1 := by
      obtain ⟨-, -, -, -, -, -, -, -, h⟩ := backward_step (back := mid.turned) h1 hs hu rfl rfl rfl
        ⟨0, by show mid.position = _; vring⟩ (fun h => h)
      exact h
    obtain ⟨b, hb1, hb2, hb3, hb4, hb5, hb6, hb7⟩ := ih h2 hss hmid
    have hvig : b.unvignetted = true → mid.unvignetted = true := by
      rw [hb6]; intro h
      exact ((C14_vignetting h2).1 h).1
    obtain ⟨c, hc1, hc2, hc3, hc4, hc5, hc6, hc7, -⟩ := backward_step h1 hs hu hb3 hb4 hb5 hb2 hvig
    refine ⟨c, ?_, hc6, hc2, hc3, hc4, hc7.trans hb6, ?_⟩
    · simp only [backwardSystem, h1]
      rw [propagateSurfaces_append, hb1, Option.bind_some, propagateSurfaces_cons, hc1, Option.bind_some,
        propagateSurfaces_nil]
    · have happ : ∀ (ss : List Surface) (x y : Ray) (s : Surface), propagateSurfaces ss x = some y →
          pointsStruck (ss ++ [s]) x = pointsStruck ss x ++ pointsStruck [s] y := by
        intro ss
        induction ss with
        | nil => intro x y s h; rw [propagateSurfaces_nil, Option.some.injEq] at h; subst h; rfl
        | cons s' ss ih =>
          intro x y s h
          rw [propagateSurfaces_cons] at h
          simp only [Option.bind_eq_some_iff] at h
          obtain ⟨m, hm, hy⟩ := h
          simp only [List.cons_append, pointsStruck, hm]
          rw [ih m y s hy]
          simp only [pointsStruck]
      simp only [backwardSystem, h1]
      rw [happ _ _ _ _ hb1, hb7]
      simp only [pointsStruck, h1, hc1, List.reverse_cons, hc5]

theorem sphereIntercept_onLine {r : ℝ} {o u q : V3} (h : sphereIntercept r o u = some q) : OnLine o u q := by
  unfold sphereIntercept at h
  simp only [Option.bind_eq_bind, Option.bind_eq_some_iff, Option.pure_def, Option.some.injEq] at h
  obtain ⟨s, -, rfl⟩ := h
  exact ⟨-(u.x * o.x + u.y * o.y + u.z * (o.z - r)) - sgn (r * u.z) * s, by ext <;> vsimp <;> ring⟩

theorem flatIntercept_onLine {o u q : V3} (h : flatIntercept o u = some q) : OnLine o u q := by
  unfold flatIntercept at h
  simp only [Option.bind_eq_bind, Option.bind_eq_some_iff, Option.pure_def, Option.some.injEq] at h
  obtain ⟨s, -, rfl⟩ := h
  exact ⟨s, by ext <;> vsimp <;> ring⟩

/-- **C86**, the condition: a plane that a ray passes at an angle can be passed both ways. -/
theorem C86_plane {s : Surface} {r out : Ray} (h : s.propagate r = some out) (hs : s.sag = flatSag)
    (rules : RulesBothWays s r out) (clips : ∀ a, s.aperture = some a → a.unit = .length)
    (before : 0 < r.index) (after : 0 < out.index)
    (mirror : s.material.isMirror = true → out.index = r.index)
    (hz : (s.frame.ivec out.direction).z ≠ 0) : TwoWay s r out := by
  rw [Surface.propagate_eq] at h
  simp only [Option.map_eq_some_iff] at h
  obtain ⟨o, ho, rfl⟩ := h
  obtain ⟨q, normal, r1, n2, b, e1, e2, att, hq, hn, heff, hp, hw', hi', ha, hv, hI, hn2, -, hr0, hb,
    he1, he2, hatt, ow, op, od, oI, oa, oi, -⟩ := propagateLocal_eq_some ho
  have hpos : s.frame.ipoint (Ray.move s.frame o).position = q := by
    show s.frame.ipoint (s.frame.point o.position) = q
    rw [Rigid.ipoint_point, op]
  rw [hs] at hq
  have hrz : (s.frame.ivec r.direction).z ≠ 0 := by
    intro h0
    have : flatIntercept (s.frame.ipoint r.position) (s.frame.ivec r.direction) = some q := hq
    unfold flatIntercept at this
    rw [div?_eq_none.2 h0] at this
    simp at this
  have hq0 : q.z = 0 := by
    have : flatIntercept (s.frame.ipoint r.position) (s.frame.ivec r.direction) = some q := hq
    unfold flatIntercept at this
    rw [div?_of_ne hrz] at this
    simp only [Option.bind_eq_bind, Option.bind_some, Option.pure_def, Option.some.injEq] at this
    rw [← this]
    field_simp
    ring
  refine ⟨rules, clips, ?_, fun t => ?_, ?_, before, after, mirror⟩
  · rw [hs]; intro o u q h; exact flatIntercept_onLine h
  · rw [hs, hpos, (C85_flat _ _ _).2]
    show flatIntercept _ _ = _
    unfold flatIntercept
    rw [div?_of_ne hz]
    simp only [Option.bind_eq_bind, Option.bind_some, Option.pure_def, Option.some.injEq]
    ext <;> simp [hq0]
  · rw [hs]
    intro n hn
    have : n = ⟨0, 0, -1⟩ := by
      have : some (⟨0, 0, -1⟩ : V3) = some n := hn
      rw [Option.some.injEq] at this; exact this.symm
    subst this
    simp only [V3.dot]
    refine ⟨by norm_num, ?_, ?_⟩
    · simpa using hrz
    · simpa using hz

/-- **C86**, the condition: a sphere can be passed both ways if the ray leaves it in the sense in which the side that faces it is
oriented: away from the vertex side. -/
theorem C86_sphere {s : Surface} {r out : Ray} {R : ℝ} (h : s.propagate r = some out)
    (hs : s.sag = sphereSag R) (rules : RulesBothWays s r out)
    (clips : ∀ a, s.aperture = some a → a.unit = .length)
    (before : 0 < r.index) (after : 0 < out.index)
    (mirror : s.material.isMirror = true → out.index = r.index)
    (hu' : out.direction.dot out.direction = 1)
    (hon : OnGraph (sphereHeight R) (s.frame.ipoint out.position))
    (hn : ∀ n, (sphereSag R).normal (s.frame.ipoint out.position) = some n →
      (s.frame.ivec r.direction).dot n ≠ 0 ∧
      (s.frame.ivec out.direction).z * (s.frame.ivec out.direction).dot n < 0) : TwoWay s r out := by
  obtain ⟨hR, hq, hRz⟩ := onGraph_sphere.1 hon
  have hul' : (s.frame.ivec out.direction).dot (s.frame.ivec out.direction) = 1 := by
    rw [Rigid.ivec_dot_ivec]; exact hu'
  generalize hqq : s.frame.ipoint out.position = q at *
  generalize hdd : s.frame.ivec out.direction = d at *
  have hnorm : (1 - (1 / R * q.x) ^ 2 - (1 / R * q.y) ^ 2) = ((R - q.z) / R) ^ 2 := by
    field_simp; linarith
  have hs0 : 0 ≤ (R - q.z) / R := by
    rw [div_nonneg_iff]
    rcases lt_or_gt_of_ne hR with h | h
    · right; exact ⟨by nlinarith, h.le⟩
    · left; exact ⟨by nlinarith, h.le⟩
  have hN : (sphereSag R).normal q = some ⟨q.x / R, q.y / R, -((R - q.z) / R)⟩ := by
    show sphereNormal R q = _
    unfold sphereNormal
    rw [div?_of_ne hR]
    simp only [Option.bind_eq_bind, Option.bind_some, Option.pure_def]
    rw [hnorm, sqrt?_of_nonneg (sq_nonneg _), Real.sqrt_sq hs0]
    simp only [Option.bind_some, Option.some.injEq]
    ext <;> simp only <;> ring
  obtain ⟨h1, h2⟩ := hn _ hN
  refine ⟨rules, clips, ?_, fun t => ?_, ?_, before, after, mirror⟩
  · rw [hs]; intro o u q h; exact sphereIntercept_onLine h
  · rw [hs, hqq, hdd, (C85_sphere R hul' _ _).2]
    show sphereIntercept R q d = _
    unfold sphereIntercept
    simp only
    have hb : d.x * q.x + d.y * q.y + d.z * (q.z - R)
        = R * d.dot ⟨q.x / R, q.y / R, -((R - q.z) / R)⟩ := by
      simp only [V3.dot]; field_simp; ring
    rw [hb, show q.x ^ 2 + q.y ^ 2 + (q.z - R) ^ 2 - R ^ 2 = 0 by linarith, sub_zero,
      sqrt?_of_nonneg (sq_nonneg _), Real.sqrt_sq_eq_abs]
    generalize d.dot ⟨q.x / R, q.y / R, -((R - q.z) / R)⟩ = e at *
    have ht : -(R * e) - sgn (R * d.z) * |R * e| = 0 := by
      have hneg : (R * d.z) * (R * e) < 0 := by
        have := mul_neg_of_pos_of_neg (by positivity : 0 < R ^ 2) h2
        nlinarith
      rcases mul_neg_iff.1 hneg with ⟨a, b⟩ | ⟨a, b⟩
      · rw [sgn_of_pos a, abs_of_neg b]; ring
      · rw [sgn_of_neg a, abs_of_pos b]; ring
    simp only [Option.bind_eq_bind, Option.bind_some, Option.pure_def, Option.some.injEq, ht]
    ext <;> simp
  · rw [hs, hqq, hdd]
    intro n hn'
    rw [hN, Option.some.injEq] at hn'
    subst hn'
    refine ⟨?_, h1, ?_⟩
    · simp only [V3.dot]
      field_simp
      linarith
    · rintro h0
      rw [h0] at h2
      simp at h2

/-- Non-vacuity of C86: a ray along the axis enters glass through a plane and is reflected behind it. -/
example : ∃ r out : Ray, ∃ ss : List Surface, ss.length = 2 ∧ propagateSurfaces ss r = some out ∧
    AllTwoWay ss r ∧ r.direction.dot r.direction = 1 ∧ out.direction = -r.direction ∧
    out.index ≠ r.index := by
  let s1 : Surface := ⟨flatSag, medium (3 / 2) false, none, none, none⟩
  let s2 : Surface := ⟨flatSag, medium (3 / 2) true, none, none, none⟩
  let r : Ray := ⟨1, ⟨0, 0, -1⟩, ⟨0, 0, 1⟩, 1, 0, 1, true⟩
  let mid : Ray := ⟨3 / 2, ⟨0, 0, 0⟩, ⟨0, 0, 1⟩, 1, 0, 3 / 2, true⟩
  let out : Ray := ⟨3 / 2, ⟨0, 0, 0⟩, ⟨0, 0, -1⟩, 1, 0, 3 / 2, true⟩
  have sn1 : snellsLaw ⟨0, 0, 1⟩ 1 (3 / 2) false ⟨0, 0, -1⟩ = some ⟨0, 0, 1⟩ := by
    rw [snellsLaw_iff false (by simp [V3.dot]) (by norm_num) (by norm_num) (by simp [V3.dot])]
    refine ⟨⟨by simp [V3.dot], ?_⟩, by simp [SameSide, V3.dot]⟩
    ext <;> simp [V3.tang, V3.dot]
  have sn2 : snellsLaw ⟨0, 0, 1⟩ (3 / 2) (3 / 2) true ⟨0, 0, -1⟩ = some ⟨0, 0, -1⟩ := by
    rw [C02_reflection (by simp [V3.dot]) (by norm_num), Option.some.injEq]
    ext <;> vsimp <;> simp [V3.dot] <;> norm_num
  have h1 : s1.propagate r = some mid := by
    simp [s1, r, mid, Surface.propagate, Surface.propagateLocal, Sag.propagate, flatSag, flatIntercept,
      div?, Surface.interact, flatNormal, Surface.effectiveRay, Surface.rulingFactor, medium, sn1,
      Surface.clip]
  have h2 : s2.propagate mid = some out := by
    simp [s2, mid, out, Surface.propagate, Surface.propagateLocal, Sag.propagate, flatSag, flatIntercept,
      div?, Surface.interact, flatNormal, Surface.effectiveRay, Surface.rulingFactor, medium, sn2,
      Surface.clip]
  have hf1 : s1.frame = Rigid.id := rfl
  have hf2 : s2.frame = Rigid.id := rfl
  refine ⟨r, out, [s1, s2], rfl, ?_, ?_, by simp [r, V3.dot], ?_, by simp [out, r]; norm_num⟩
  · rw [propagateSurfaces_cons, h1, Option.bind_some, propagateSurfaces_cons, h2, Option.bind_some,
      propagateSurfaces_nil]
  · intro m hm
    rw [h1, Option.some.injEq] at hm
    subst hm
    refine ⟨C86_plane h1 rfl (RulesBothWays.plain rfl _ _) (by simp [s1]) (by simp [r]) (by simp [mid])
      (by simp [s1, medium]) ?_, ?_⟩
    · rw [hf1]; simp [Rigid.id, Rigid.ivec, M3.one, M3.mulVec, M3.transpose, V3.dot, mid]
    · intro m hm
      rw [h2, Option.some.injEq] at hm
      subst hm
      refine ⟨C86_plane h2 rfl (RulesBothWays.plain rfl _ _) (by simp [s2]) (by simp [mid]) (by simp [out])
        (by simp [mid, out]) ?_, trivial⟩
      rw [hf2]; simp [Rigid.id, Rigid.ivec, M3.one, M3.mulVec, M3.transpose, V3.dot, out]
  · ext <;> simp [out, r]

end Optika
