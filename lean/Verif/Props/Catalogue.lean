import Verif.Model.Catalogue
import Verif.Props.FitEqe
import Verif.Props.Depletion

/-!
# C118: the sensors of the catalogue
-/

namespace Optika

/-! ### Specification -/

/-- The thickness of the substrate, in ångström: 14, 16 and 7 µm. -/
def Catalogued.thickness : Catalogued → ℝ
  | .ccd97 => 140000
  | .ccd203 => 160000
  | .tk512cb => 70000

/-- A sensor that was asked for: its temperature and thickness, and parameters that make sense. -/
structure CatalogueSensor.Answers (s : CatalogueSensor) (d : Catalogued) (temperature : ℝ) : Prop where
  temperature : s.material.temperature = temperature
  thickness : s.material.thicknessSubstrate = d.thickness
  sensible : s.material.Candidate

/-- Two sensors that agree but for the temperature. -/
def CatalogueSensor.SameBut (s s' : CatalogueSensor) : Prop :=
  { s.material with temperature := 0 } = { s'.material with temperature := 0 } ∧
    s.depletion = s'.depletion ∧ s.measured = s'.measured

/-! ### Calls -/

theorem substrate_eq (d : Catalogued) : Library.substrate d = d.thickness := by
  cases d <;> norm_num [Library.substrate, Catalogued.thickness, micrometre]

theorem fitted_eq {l : Library} {d : Catalogued} {s : CatalogueSensor} (h : l.fitted d = some s) :
    l.eqeMeasured d = some s.measured ∧ l.depletion d = some s.depletion ∧
      s.material = fitEqe l.box l.nOxideDefault l.nOxide l.nSilicon l.iqy l.fano d.thickness s.measured 300 := by
  unfold Library.fitted at h
  simp only [Option.bind_eq_bind, Option.bind_eq_some_iff, Option.pure_def, Option.some.injEq] at h
  obtain ⟨measured, h1, depletion, h2, rfl⟩ := h
  exact ⟨h1, h2, by rw [substrate_eq]⟩

/-- What the cache has is what the fit gives. -/
def Session.Sound (l : Library) (st : Session) : Prop :=
  ∀ d s, st.cache d = some s → l.fitted d = some s

theorem call_eq {l : Library} {st st' : Session} (hst : st.Sound l) {d : Catalogued} {t : ℝ}
    (h : l.call st d t = some st') :
    st'.Sound l ∧ ∃ s, l.fitted d = some s ∧ st'.objects = st.objects ++ [Library.setTemperature s t] := by
  unfold Library.call at h
  simp only [Option.bind_eq_bind, Option.bind_eq_some_iff, Option.pure_def, Option.some.injEq] at h
  obtain ⟨s, h1, rfl⟩ := h
  have hs : l.fitted d = some s := by
    cases hc : st.cache d with
    | none => rw [hc] at h1; exact h1
    | some s' =>
      rw [hc] at h1
      have : s' = s := Option.some.inj h1
      exact this ▸ hst d s' hc
  refine ⟨fun d' s' h' => ?_, s, hs, rfl⟩
  simp only at h'
  split_ifs at h' with hd
  · rw [hd, hs, h']
  · exact hst d' s' h'

theorem calls_eq {l : Library} {st st' : Session} (hst : st.Sound l) {cs : List (Catalogued × ℝ)}
    (h : l.calls st cs = some st') :
    ∃ new, st'.objects = st.objects ++ new ∧
      List.Forall₂ (fun c o => ∃ s, l.fitted c.1 = some s ∧ o = Library.setTemperature s c.2) cs new := by
  induction cs generalizing st with
  | nil =>
    have : st = st' := Option.some.inj h
    exact ⟨[], by rw [this, List.append_nil], .nil⟩
  | cons c cs ih =>
    have h' : (l.call st c.1 c.2).bind (fun st1 => l.calls st1 cs) = some st' := h
    obtain ⟨st1, h1, h2⟩ := Option.bind_eq_some_iff.1 h'
    obtain ⟨hst1, s, hs, ho⟩ := call_eq hst h1
    obtain ⟨new, hn, hf⟩ := ih hst1 h2
    exact ⟨Library.setTemperature s c.2 :: new, by rw [hn, ho, List.append_assoc]; rfl, .cons ⟨s, hs, rfl⟩ hf⟩

/-- A new session. -/
def Session.new : Session := ⟨fun _ => none, []⟩

theorem new_sound (l : Library) : Session.new.Sound l := fun _ _ h => by simp [Session.new] at h

/-- **C118**  However often and in whatever order the sensors of the catalogue are called for: at the end, every sensor that
was returned has the temperature that was asked for in the call that returned it, and the thickness of the sensor that was
asked for, and sensible parameters. -/
theorem C118_calls {l : Library} {cs : List (Catalogued × ℝ)} {st : Session}
    (h : l.calls Session.new cs = some st) :
    List.Forall₂ (fun o c => o.Answers c.1 c.2) st.objects cs := by
  obtain ⟨new, h1, h2⟩ := calls_eq (new_sound l) h
  have h1 : st.objects = new := h1
  rw [h1]
  refine List.Forall₂.flip (h2.imp fun c o => ?_)
  rintro ⟨s, hs, rfl⟩
  obtain ⟨-, -, hm⟩ := fitted_eq hs
  obtain ⟨hc, ht, -⟩ := C78_parameters l.box l.nOxideDefault l.nOxide l.nSilicon l.iqy l.fano c.1.thickness s.measured 300
  rw [← hm] at hc ht
  exact ⟨rfl, ht, hc⟩

theorem calls_get {l : Library} {cs : List (Catalogued × ℝ)} {st : Session}
    (h : l.calls Session.new cs = some st) {i : ℕ} {c : Catalogued × ℝ} {o : CatalogueSensor}
    (hc : cs[i]? = some c) (ho : st.objects[i]? = some o) :
    ∃ s, l.fitted c.1 = some s ∧ o = Library.setTemperature s c.2 := by
  obtain ⟨new, h1, h2⟩ := calls_eq (new_sound l) h
  have h1 : st.objects = new := h1
  rw [h1] at ho
  obtain ⟨hi, rfl⟩ := List.getElem?_eq_some_iff.1 hc
  obtain ⟨hj, rfl⟩ := List.getElem?_eq_some_iff.1 ho
  exact (List.forall₂_iff_get.1 h2).2 i hi hj

/-- **C118**  Two calls for the same sensor return sensors that differ only in their temperature, whatever was called for
before and between. -/
theorem C118_same {l : Library} {cs : List (Catalogued × ℝ)} {st : Session}
    (h : l.calls Session.new cs = some st) {i j : ℕ} {c c' : Catalogued × ℝ} {o o' : CatalogueSensor}
    (hi : cs[i]? = some c) (hj : cs[j]? = some c') (hcc : c.1 = c'.1)
    (ho : st.objects[i]? = some o) (ho' : st.objects[j]? = some o') : o.SameBut o' := by
  obtain ⟨s, hs, rfl⟩ := calls_get h hi ho
  obtain ⟨s', hs', rfl⟩ := calls_get h hj ho'
  rw [hcc, hs', Option.some.injEq] at hs
  subst hs
  exact ⟨rfl, rfl, rfl⟩

/-- **C118**  The efficiency that a sensor of the catalogue reports does not depend on the temperature that was asked for. -/
theorem C118_efficiency {s s' : CatalogueSensor} (h : s.SameBut s') (w : ℝ) :
    s.material.normalEqe w = s'.material.normalEqe w := by
  have e : ∀ m : SiliconMaterial, m.normalEqe w = { m with temperature := 0 }.normalEqe w := fun _ => rfl
  rw [e, e s'.material, h.1]

/-! ### Measurements -/

theorem mapM_mem {α β : Type} {f : α → Option β} {xs : List α} {ys : List β} (h : xs.mapM f = some ys) (y : β) :
    y ∈ ys ↔ ∃ x ∈ xs, f x = some y := by
  induction xs generalizing ys with
  | nil => simp at h; subst h; simp
  | cons x xs ih =>
    rw [List.mapM_cons] at h
    simp only [Option.bind_eq_bind, Option.bind_eq_some_iff, Option.pure_def, Option.some.injEq] at h
    obtain ⟨z, hz, zs, hzs, rfl⟩ := h
    rw [List.mem_cons, ih hzs]
    constructor
    · rintro (rfl | ⟨x', hx', h'⟩)
      · exact ⟨x, by simp, hz⟩
      · exact ⟨x', by simp [hx'], h'⟩
    · rintro ⟨x', hx', h'⟩
      rcases List.mem_cons.1 hx' with rfl | hx'
      · rw [hz] at h'; exact .inl (Option.some.inj h').symm
      · exact .inr ⟨x', hx', h'⟩

/-- **C118**  The measurements that come with an e2v CCD97 are those of the two files: photons of energy `E` have wavelength
`hc / E`, one nanometre is ten ångström, and the efficiencies are fractions rather than percent. -/
theorem C118_ccd97_measured {l : Library} {m : List (ℝ × ℝ)} (h : l.eqeMeasured .ccd97 = some m) (w e : ℝ) :
    (w, e) ∈ m ↔ (∃ energy percent, (energy, percent) ∈ l.moody ∧ energy ≠ 0 ∧ w * energy = l.hc ∧ 100 * e = percent) ∨
      ∃ nm percent, (nm, percent) ∈ l.heymes ∧ w = 10 * nm ∧ 100 * e = percent := by
  unfold Library.eqeMeasured at h
  simp only [Option.bind_eq_bind, Option.bind_eq_some_iff, Option.pure_def, Option.some.injEq] at h
  obtain ⟨moody, h1, rfl⟩ := h
  rw [List.mem_append, mapM_mem h1]
  refine or_congr ?_ ?_
  · constructor
    · rintro ⟨⟨energy, percent⟩, hm, h⟩
      simp only [Library.wavelengthOf, Option.bind_eq_some_iff, div?_eq_some, Option.some.injEq, Prod.mk.injEq] at h
      obtain ⟨w', ⟨hne, rfl⟩, rfl, rfl⟩ := h
      exact ⟨energy, percent, hm, hne, by field_simp, by field_simp⟩
    · rintro ⟨energy, percent, hm, hne, hw, he⟩
      refine ⟨(energy, percent), hm, ?_⟩
      simp only [Library.wavelengthOf, Option.bind_eq_some_iff, div?_eq_some, Option.some.injEq, Prod.mk.injEq]
      exact ⟨w, ⟨hne, by rw [← hw]; field_simp⟩, rfl, by rw [← he]; field_simp⟩
  · constructor
    · intro h
      obtain ⟨⟨nm, percent⟩, hm, h⟩ := List.mem_map.1 h
      simp only [Prod.mk.injEq] at h
      exact ⟨nm, percent, hm, by rw [← h.1, nanometre]; ring, by rw [← h.2]; field_simp⟩
    · rintro ⟨nm, percent, hm, hw, he⟩
      refine List.mem_map.2 ⟨(nm, percent), hm, ?_⟩
      simp only [Prod.mk.injEq]
      exact ⟨by rw [hw, nanometre]; ring, by rw [← he]; field_simp⟩

/-- **C118**  The measurements that come with an e2v CCD203 lie between those of the four detectors that were measured; if
the four were measured at the same wavelength, theirs is that wavelength. -/
theorem C118_ccd203_measured {l : Library} {m : List (ℝ × ℝ)} (h : l.eqeMeasured .ccd203 = some m) (p : ℝ × ℝ) (hp : p ∈ m) :
    ∃ r1 r2 r3 r4 : ℝ × ℝ, (r1, r2, r3, r4) ∈ l.boerner ∧ 4 * p = r1 + r2 + r3 + r4 ∧
      (∀ lo hi, (∀ r ∈ [r1, r2, r3, r4], lo ≤ r.2 ∧ r.2 ≤ hi) → lo ≤ p.2 ∧ p.2 ≤ hi) ∧
      ∀ w, (∀ r ∈ [r1, r2, r3, r4], r.1 = w) → p.1 = w := by
  unfold Library.eqeMeasured at h
  rw [Option.some.injEq] at h
  subst h
  obtain ⟨⟨r1, r2, r3, r4⟩, hr, rfl⟩ := List.mem_map.1 hp
  refine ⟨r1, r2, r3, r4, hr, ?_, fun lo hi h => ?_, fun w h => ?_⟩
  · ext
    · change 4 * ((r1.1 + r2.1 + r3.1 + r4.1) / 4) = r1.1 + r2.1 + r3.1 + r4.1; ring
    · change 4 * ((r1.2 + r2.2 + r3.2 + r4.2) / 4) = r1.2 + r2.2 + r3.2 + r4.2; ring
  · simp only [List.forall_mem_cons, List.not_mem_nil, false_imp_iff, implies_true, and_true] at h
    constructor <;> linarith [h.1.1, h.1.2]
  · simp only [List.forall_mem_cons, List.not_mem_nil, false_imp_iff, implies_true, and_true] at h
    change (r1.1 + r2.1 + r3.1 + r4.1) / 4 = w
    rw [h.1, h.2.1, h.2.2.1, h.2.2.2]
    ring

/-- **C118**  The sensors of the catalogue describe the measurements that come with them, in sum of squares, at least as well
as the sensor where their fit begins, if the two names that the code uses for the oxide mean the same index of refraction. -/
theorem C118_fit_partial {l : Library} (hO : l.nOxideDefault = l.nOxide) {d : Catalogued} {s : CatalogueSensor}
    (h : l.fitted d = some s) {g : SiliconMaterial} (hg : g.IsGuess) (hs : g.SameStuff s.material)
    (hne : s.measured ≠ []) {v : ℝ} (hv : Misfit g s.measured v) :
    ∃ v', Misfit s.material s.measured v' ∧ v' ≤ v := by
  obtain ⟨-, -, hm⟩ := fitted_eq h
  rw [hO] at hm
  rw [hm] at hs ⊢
  exact C78_improves_partial _ _ _ _ _ _ _ _ hg hs hne hv

/-! ### Depletion regions -/

theorem fitted_depletion {b : ScalarMinimizer} {s p : ℝ} {a : ℝ → Option ℝ} {m : List (ℝ × ℝ)} {r : DepletionModel}
    (h : fitDepletion b s a p m = some r) : 0 ≤ r.thickness ∧ r.thickness ≤ s := by
  unfold fitDepletion at h
  simp only [Option.bind_eq_bind, Option.bind_eq_some_iff, Option.pure_def, Option.some.injEq] at h
  obtain ⟨x, hx, rfl⟩ := h
  exact ⟨(b.spec _ _ _ _ hx).1, (b.spec _ _ _ _ hx).2.1⟩

theorem diffusion_none {a s d : ℝ} (ha : 0 < a) (hs : 0 < s) (hd : s < d) : chargeDiffusion a s d = none := by
  have hE : 0 < 1 - Real.exp (-(a * s)) := by
    have : Real.exp (-(a * s)) < 1 := by
      rw [Real.exp_lt_one_iff]; have := mul_pos ha hs; linarith
    linarith
  have hden := mul_pos ha hE
  have h1 := Real.add_one_lt_exp (x := -(a * (s - d))) (by
    have := mul_pos ha (sub_pos.2 hd)
    intro h0
    nlinarith)
  have hneg : (s - d) * (a * (s - d) + Real.exp (-(a * (s - d))) - 1) / (a * (1 - Real.exp (-(a * s)))) < 0 :=
    div_neg_of_neg_of_pos (mul_neg_of_neg_of_pos (by linarith) (by linarith)) hden
  unfold chargeDiffusion
  simp only [neg_mul, div?_of_ne hden.ne', Option.bind_eq_bind, Option.bind_some]
  unfold sqrt?
  rw [if_pos hneg]

/-- **C118**  Where light is absorbed, the charge diffusion of a sensor of the catalogue has a finite width if and only if the
depletion region that was measured with another detector fits into its substrate. -/
theorem C118_diffusion_iff {l : Library} {d : Catalogued} {s : CatalogueSensor} (h : l.fitted d = some s) (t : ℝ)
    {w a : ℝ} (ha : 0 < a) (hw : l.absorption w = some a) :
    (Library.setTemperature s t).widthChargeDiffusion l w ≠ none ↔ s.depletion.thickness ≤ d.thickness := by
  obtain ⟨-, hdep, hm⟩ := fitted_eq h
  have h0 : 0 ≤ s.depletion.thickness := by
    cases d <;> simp only [Library.depletion, Library.ccd64Thick, Library.ccd64Thin, Option.bind_eq_bind,
      Option.bind_eq_some_iff] at hdep <;> obtain ⟨_, -, h2⟩ := hdep <;> exact (fitted_depletion h2).1
  have hpos : 0 < d.thickness := by cases d <;> norm_num [Catalogued.thickness]
  have e : (Library.setTemperature s t).widthChargeDiffusion l w = chargeDiffusion a d.thickness s.depletion.thickness := by
    unfold CatalogueSensor.widthChargeDiffusion Library.setTemperature
    rw [hw, hm]
    rfl
  rw [e]
  constructor
  · intro hne
    by_contra hlt
    exact hne (diffusion_none ha hpos (not_le.1 hlt))
  · intro hle hnone
    obtain ⟨v, hv, -⟩ := C47_mean ha hpos h0 hle
    rw [hv] at hnone
    exact absurd hnone (by simp)

/-- **C118**  The charge diffusion of the e2v CCD203 has a finite width wherever light is absorbed, which does not exceed the
thickness of its substrate, whatever was measured. -/
theorem C118_ccd203_diffusion {l : Library} {s : CatalogueSensor} (h : l.fitted .ccd203 = some s) (t : ℝ) {w a : ℝ}
    (ha : 0 < a) (hw : l.absorption w = some a) :
    ∃ width, (Library.setTemperature s t).widthChargeDiffusion l w = some width ∧ 0 ≤ width ∧ width ≤ 160000 := by
  obtain ⟨-, hdep, hm⟩ := fitted_eq h
  simp only [Library.depletion, Library.ccd64Thick, Option.bind_eq_bind, Option.bind_eq_some_iff] at hdep
  obtain ⟨_, -, h2⟩ := hdep
  obtain ⟨h3, h4⟩ := fitted_depletion h2
  have h5 : s.depletion.thickness ≤ 160000 := h4.trans (by norm_num [micrometre])
  obtain ⟨v, hv, hv0, -⟩ := C47_mean ha (by norm_num : (0 : ℝ) < 160000) h3 h5
  refine ⟨v, ?_, hv0, ?_⟩
  · unfold CatalogueSensor.widthChargeDiffusion Library.setTemperature
    rw [hw, hm]
    exact hv
  · have := C47_range ha (by norm_num : (0 : ℝ) < 160000) h3 h5 hv
    linarith

/-! ### A depletion region that does not fit -/

open Classical in
/-- A minimizer that finds a minimum whenever there is one. -/
noncomputable def diligent : ScalarMinimizer where
  find f lo hi := if h : ∃ x, lo ≤ x ∧ x ≤ hi ∧
      ∃ u, f x = some u ∧ ∃ ε > 0, ∀ y v, lo ≤ y → y ≤ hi → |y - x| < ε → f y = some v → u ≤ v then some h.choose else none
  spec f lo hi x hx := by
    split_ifs at hx with h
    rw [← Option.some.inj hx]
    exact h.choose_spec

/-- A minimizer that stays where it is. -/
noncomputable def lazyBox : BoxMinimizer := ⟨fun _ x => x, fun _ _ h => h, fun _ _ v _ h => ⟨v, h, le_rfl⟩⟩

/-- A library with one measurement of the charge capture, of photons of 1 keV. -/
noncomputable def sampleLibrary (capture : ℝ) : Library where
  minimizer := diligent
  box := lazyBox
  nOxideDefault _ := 1
  nOxide _ := 1
  nSilicon _ := 1
  iqy _ _ := 1
  fano _ _ := 1
  absorption _ := some 1
  hc := 12398
  thick := [(1, capture)]
  thin := [(1, capture)]
  moody := [(40, 69)]
  heymes := [(50, 51)]
  boerner := [((13, 0.96), (13, 0.97), (13, 0.96), (13, 0.95))]

theorem sample_fits {d₀ : ℝ} (h0 : 0 ≤ d₀) (h1 : d₀ ≤ 150000) :
    ∃ c s, (sampleLibrary c).fitted .ccd97 = some s ∧ s.depletion.thickness = d₀ ∧ s.measured.length = 2 := by
  obtain ⟨c, hc, -⟩ := C71_monotone (s := 150000) (p := 160000) (wavelength := 12398 / 1000) (a := 1)
    (absorption := fun _ => some 1) (by norm_num) (by norm_num) one_pos rfl
  have hpred : PredictedBy ⟨d₀, 150000, fun _ => some 1, 160000⟩ [(12398 / 1000, c d₀)] := by
    intro q hq
    rw [List.mem_singleton] at hq
    subst hq
    exact hc d₀ h0 h1
  have habs : ∀ q ∈ [(((12398 : ℝ) / 1000), c d₀)], ∃ a : ℝ, 0 < a ∧ (fun _ : ℝ => some (1 : ℝ)) q.1 = some a :=
    fun _ _ => ⟨1, one_pos, rfl⟩
  obtain ⟨F, hF, hF0, hanti, hmono⟩ := C71_unimodal (by norm_num) (by norm_num) h0 h1 (by simp) habs hpred
  have hex : ∃ x, (0 : ℝ) ≤ x ∧ x ≤ 150000 ∧ ∃ u, depletionObjective 150000 (fun _ => some 1) 160000 [(12398 / 1000, c d₀)] x = some u ∧
      ∃ ε > 0, ∀ y v, 0 ≤ y → y ≤ 150000 → |y - x| < ε →
        depletionObjective 150000 (fun _ => some 1) 160000 [(12398 / 1000, c d₀)] y = some v → u ≤ v := by
    refine ⟨d₀, h0, h1, F d₀, hF d₀ h0 h1, 1, one_pos, fun y v hy0 hy1 _ hy => ?_⟩
    rw [hF y hy0 hy1, Option.some.injEq] at hy
    rw [← hy]
    rcases le_total y d₀ with hle | hle
    · exact hanti.antitoneOn ⟨hy0, hle⟩ ⟨h0, le_rfl⟩ hle
    · exact hmono.monotoneOn ⟨le_rfl, h1⟩ ⟨hle, hy1⟩ hle
  have hfind : ∃ r, fitDepletion diligent 150000 (fun _ => some 1) 160000 [(12398 / 1000, c d₀)] = some r := by
    unfold fitDepletion diligent
    simp only [dif_pos hex]
    exact ⟨_, rfl⟩
  obtain ⟨r, hr⟩ := hfind
  have hrec := C71_recover (by norm_num) (by norm_num) h0 h1 (by simp) habs hpred hr
  have e1 : (15 : ℝ) * micrometre = 150000 := by norm_num [micrometre]
  have e2 : (16 : ℝ) * micrometre = 160000 := by norm_num [micrometre]
  have hthick : (sampleLibrary (c d₀)).ccd64Thick = some r := by
    unfold Library.ccd64Thick Library.mccMeasured Library.wavelengthOf sampleLibrary
    rw [e1, e2]
    simpa [div?] using hr
  have hmeas : (sampleLibrary (c d₀)).eqeMeasured .ccd97 = some [(12398 / 40, 69 / 100), (50 * nanometre, 51 / 100)] := by
    unfold Library.eqeMeasured Library.wavelengthOf sampleLibrary
    simp [div?]
  have hfit : ∃ s, (sampleLibrary (c d₀)).fitted .ccd97 = some s := by
    unfold Library.fitted
    rw [hmeas]
    simp only [Library.depletion, hthick]
    exact ⟨_, rfl⟩
  obtain ⟨s, hs⟩ := hfit
  obtain ⟨h1, h2, -⟩ := fitted_eq hs
  have h2 : (sampleLibrary (c d₀)).ccd64Thick = some s.depletion := h2
  rw [hmeas, Option.some.injEq] at h1
  rw [hthick, Option.some.injEq] at h2
  refine ⟨c d₀, s, hs, ?_, ?_⟩
  · rw [← h2, hrec]
  · rw [← h1]; rfl

/-- **C118**  The hypothesis of `C118_diffusion_iff` is not met by construction.  The depletion region of the e2v CCD97 is
fitted to measurements of another detector, within a substrate of 15 µm, and its own substrate has 14 µm.  If the
measurements say that the other detector is depleted to 14.5 µm, the width of the charge diffusion of the CCD97 is not finite
at any wavelength.  (The measurements in the file of the present release are of a detector that is depleted much less.) -/
theorem C118_deep_counterexample : ∃ (l : Library) (s : CatalogueSensor), l.fitted .ccd97 = some s ∧
    s.depletion.thickness = 145000 ∧ ∀ t w, (Library.setTemperature s t).widthChargeDiffusion l w = none := by
  obtain ⟨c, s, hs, hd, -⟩ := sample_fits (d₀ := 145000) (by norm_num) (by norm_num)
  refine ⟨sampleLibrary c, s, hs, hd, fun t w => ?_⟩
  by_contra hne
  have := (C118_diffusion_iff hs t one_pos (w := w) rfl).1 hne
  rw [hd] at this
  norm_num [Catalogued.thickness] at this

/-- A session with three calls. -/
example : ∃ (l : Library) (st : Session),
    l.calls Session.new [(.ccd97, 300), (.ccd97, 200), (.ccd97, 300)] = some st ∧ st.objects.length = 3 ∧
      ∃ s ∈ st.objects, s.material.temperature = 200 ∧ s.depletion.thickness = 20000 ∧ s.measured ≠ [] := by
  obtain ⟨c, s, hs, hd, hm⟩ := sample_fits (d₀ := 20000) (by norm_num) (by norm_num)
  have hst : ∃ st, (sampleLibrary c).calls Session.new [(.ccd97, 300), (.ccd97, 200), (.ccd97, 300)] = some st := by
    simp only [Library.calls, Library.call, Session.new, hs, Option.bind_eq_bind, Option.bind_some, Option.pure_def,
      Option.orElse, if_true]
    exact ⟨_, rfl⟩
  obtain ⟨st, hst⟩ := hst
  obtain ⟨new, h1, h2⟩ := calls_eq (new_sound _) hst
  have h1 : st.objects = new := h1
  rw [← h1] at h2
  refine ⟨_, st, hst, h2.length_eq.symm, ?_⟩
  have hlen : st.objects.length = 3 := h2.length_eq.symm
  obtain ⟨s', hs', ho⟩ := calls_get hst (i := 1) rfl (List.getElem?_eq_getElem (i := 1) (by rw [hlen]; norm_num))
  rw [hs, Option.some.injEq] at hs'
  subst hs'
  refine ⟨_, List.getElem_mem (n := 1) (by rw [hlen]; norm_num), by rw [ho]; rfl, by rw [ho]; exact hd, ?_⟩
  rw [ho]
  intro h0
  have h0 : s.measured = [] := h0
  rw [h0] at hm
  simp at hm

end Optika
