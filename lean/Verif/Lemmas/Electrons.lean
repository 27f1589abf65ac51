import Verif.Model.Electrons
import Mathlib.Algebra.BigOperators.Group.Finset.Basic
import Mathlib.Algebra.BigOperators.Intervals
import Mathlib.Data.Finset.Prod

/-!
# Lemmas about the simulation of electrons
-/

namespace Optika

theorem sequence_eq_some {α : Type} : ∀ {l : List (Option (List α))} {L : List α},
    sequence l = some L → L = l.flatMap (fun o => o.getD []) ∧ ∀ o ∈ l, o.isSome
  | [], L, h => by
    simp only [sequence, Option.some.injEq] at h
    subst h; simp
  | o :: os, L, h => by
    simp only [sequence, Option.bind_eq_bind, Option.pure_def, Option.bind_eq_some_iff,
      Option.some.injEq] at h
    obtain ⟨a, rfl, r, hr, rfl⟩ := h
    obtain ⟨h1, h2⟩ := sequence_eq_some hr
    refine ⟨by simp [h1], ?_⟩
    intro o ho
    rcases List.mem_cons.1 ho with rfl | ho
    · rfl
    · exact h2 o ho

theorem sequence_map_eq_some {α β : Type} {l : List β} {f : β → Option (List α)} {L : List α}
    (h : sequence (l.map f) = some L) :
    L = l.flatMap (fun b => (f b).getD []) ∧ ∀ b ∈ l, (f b).isSome := by
  obtain ⟨h1, h2⟩ := sequence_eq_some h
  refine ⟨by rw [h1, List.flatMap_map], fun b hb => h2 _ (List.mem_map_of_mem hb)⟩

theorem sequence_isSome {α : Type} : ∀ {l : List (Option (List α))}, (∀ o ∈ l, o.isSome) →
    (sequence l).isSome
  | [], _ => rfl
  | o :: os, h => by
    obtain ⟨a, ha⟩ := Option.isSome_iff_exists.1 (h o List.mem_cons_self)
    obtain ⟨r, hr⟩ := Option.isSome_iff_exists.1
      (sequence_isSome fun o ho => h o (List.mem_cons_of_mem _ ho))
    simp [sequence, ha, hr]

theorem foldl_deposit (l : List (Option (ℕ × ℕ))) (image : ℕ × ℕ → ℕ) (c : ℕ × ℕ) :
    l.foldl deposit image c = image c + l.count (some c) := by
  induction l generalizing image with
  | nil => simp
  | cons o l ih =>
    rw [List.foldl_cons, ih, List.count_cons]
    cases o with
    | none => simp [deposit]
    | some c' =>
      unfold deposit
      dsimp only
      by_cases h : c = c'
      · subst h; simp; omega
      · rw [if_neg h]
        have : (some c' == some c) = false := by
          simp only [beq_eq_false_iff_ne, ne_eq, Option.some.injEq]
          exact fun h' => h h'.symm
        simp [this]

theorem sum_foldl_deposit (G : Finset (ℕ × ℕ)) (l : List (Option (ℕ × ℕ))) (image : ℕ × ℕ → ℕ)
    (h : ∀ c, some c ∈ l → c ∈ G) :
    ∑ c ∈ G, l.foldl deposit image c = ∑ c ∈ G, image c + l.countP Option.isSome := by
  simp only [foldl_deposit]
  rw [Finset.sum_add_distrib]
  congr 1
  clear image
  induction l with
  | nil => simp
  | cons o l ih =>
    have ih := ih fun c hc => h c (List.mem_cons_of_mem _ hc)
    simp only [List.count_cons, List.countP_cons]
    rw [Finset.sum_add_distrib, ih]
    congr 1
    cases o with
    | none => simp
    | some c' =>
      have := h c' List.mem_cons_self
      simp only [beq_iff_eq, Option.some.injEq, Option.isSome_some, if_true]
      rw [Finset.sum_ite_eq G c']
      simp [this]

theorem list_range_sum (n : ℕ) (f : ℕ → ℕ) :
    ((List.range n).map f).sum = ∑ k ∈ Finset.range n, f k := by
  induction n with
  | zero => simp
  | succ n ih => rw [List.range_succ, List.map_append, List.sum_append, ih, Finset.sum_range_succ]; simp

/-- The number of electrons collected from a photon. -/
noncomputable def collected (s : PixelParams) (r : PhotonDraw) : ℕ :=
  ((photonOutcome s r).map Prod.snd).getD 0

theorem photonEvents_eq {wrap : Bool} {numX numY : ℕ} {s : PixelParams} {x y : ℕ} {r : PhotonDraw}
    (h : (photonEvents wrap numX numY s x y r).isSome) :
    ∃ z, photonOutcome s r = some (z, collected s r) ∧
      photonEvents wrap numX numY s x y r = some ((List.range (collected s r)).map fun e =>
        electronTarget wrap numX numY x y (displacement s r z e)) := by
  unfold photonEvents at h ⊢
  unfold collected
  cases ho : photonOutcome s r with
  | none => simp [ho] at h
  | some zm =>
    obtain ⟨z, m⟩ := zm
    exact ⟨z, by simp, by simp⟩

theorem electronTarget_mem {wrap : Bool} {numX numY x y : ℕ} (hx : 0 < numX) (hy : 0 < numY)
    {d : ℤ × ℤ} {c : ℕ × ℕ} (h : electronTarget wrap numX numY x y d = some c) :
    c.1 < numX ∧ c.2 < numY := by
  have hx' : (0 : ℤ) < numX := by exact_mod_cast hx
  have hy' : (0 : ℤ) < numY := by exact_mod_cast hy
  unfold electronTarget at h
  dsimp only at h
  split at h
  · rw [Option.some.injEq] at h
    subst h
    have h1 := Int.emod_nonneg (x + d.1) hx'.ne'
    have h2 := Int.emod_lt_of_pos (x + d.1) hx'
    have h3 := Int.emod_nonneg (y + d.2) hy'.ne'
    have h4 := Int.emod_lt_of_pos (y + d.2) hy'
    constructor <;> omega
  · split at h
    · rw [Option.some.injEq] at h
      subst h
      constructor <;> omega
    · simp at h

theorem electronTarget_zero {wrap : Bool} {numX numY x y : ℕ} (hx : x < numX) (hy : y < numY) :
    electronTarget wrap numX numY x y (0, 0) = some (x, y) := by
  unfold electronTarget
  dsimp only
  rw [add_zero, add_zero]
  cases wrap with
  | true =>
    have h1 : (x : ℤ) % numX = x := Int.emod_eq_of_lt (by omega) (by omega)
    have h2 : (y : ℤ) % numY = y := Int.emod_eq_of_lt (by omega) (by omega)
    simp [h1, h2]
  | false => simp [hx, hy]

/-- The events of a frame, without the exceptions. -/
theorem frameEvents_eq {wrap : Bool} {numX numY : ℕ} {s : ℕ → ℕ → PixelParams}
    {draw : ℕ → ℕ → ℕ → PhotonDraw} {L : List (Option (ℕ × ℕ))}
    (h : frameEvents wrap numX numY s draw = some L) :
    (L = (List.range numX).flatMap fun x => (List.range numY).flatMap fun y =>
      (List.range (s x y).numPhoton).flatMap fun j =>
        (photonEvents wrap numX numY (s x y) x y (draw x y j)).getD [])
      ∧ ∀ x < numX, ∀ y < numY, ∀ j < (s x y).numPhoton,
        (photonEvents wrap numX numY (s x y) x y (draw x y j)).isSome := by
  unfold frameEvents at h
  obtain ⟨h1, h2⟩ := sequence_map_eq_some h
  have hy : ∀ x ∈ List.range numX, ∀ y ∈ List.range numY,
      (sequence ((List.range (s x y).numPhoton).map fun j =>
        photonEvents wrap numX numY (s x y) x y (draw x y j))).isSome := by
    intro x hx
    obtain ⟨l, hl⟩ := Option.isSome_iff_exists.1 (h2 x hx)
    exact (sequence_map_eq_some hl).2
  have hj : ∀ x ∈ List.range numX, ∀ y ∈ List.range numY, ∀ j ∈ List.range (s x y).numPhoton,
      (photonEvents wrap numX numY (s x y) x y (draw x y j)).isSome := by
    intro x hx y hy'
    obtain ⟨l, hl⟩ := Option.isSome_iff_exists.1 (hy x hx y hy')
    exact (sequence_map_eq_some hl).2
  refine ⟨?_, fun x hx y hy' j hj' => hj x (List.mem_range.2 hx) y (List.mem_range.2 hy') j
    (List.mem_range.2 hj')⟩
  rw [h1]
  refine List.flatMap_congr fun x hx => ?_
  obtain ⟨l, hl⟩ := Option.isSome_iff_exists.1 (h2 x hx)
  rw [hl, Option.getD_some, (sequence_map_eq_some hl).1]
  refine List.flatMap_congr fun y hy' => ?_
  obtain ⟨l', hl'⟩ := Option.isSome_iff_exists.1 (hy x hx y hy')
  rw [hl', Option.getD_some, (sequence_map_eq_some hl').1]

theorem frameEvents_length {wrap : Bool} {numX numY : ℕ} {s : ℕ → ℕ → PixelParams}
    {draw : ℕ → ℕ → ℕ → PhotonDraw} {L : List (Option (ℕ × ℕ))}
    (h : frameEvents wrap numX numY s draw = some L) :
    L.length = ∑ x ∈ Finset.range numX, ∑ y ∈ Finset.range numY,
      ∑ j ∈ Finset.range (s x y).numPhoton, collected (s x y) (draw x y j) := by
  obtain ⟨rfl, h2⟩ := frameEvents_eq h
  rw [List.length_flatMap, list_range_sum]
  refine Finset.sum_congr rfl fun x hx => ?_
  rw [List.length_flatMap, list_range_sum]
  refine Finset.sum_congr rfl fun y hy => ?_
  rw [List.length_flatMap, list_range_sum]
  refine Finset.sum_congr rfl fun j hj => ?_
  obtain ⟨z, -, e⟩ := photonEvents_eq (h2 x (Finset.mem_range.1 hx) y (Finset.mem_range.1 hy) j
    (Finset.mem_range.1 hj))
  rw [e]; simp

theorem frameEvents_mem {wrap : Bool} {numX numY : ℕ} {s : ℕ → ℕ → PixelParams}
    {draw : ℕ → ℕ → ℕ → PhotonDraw} {L : List (Option (ℕ × ℕ))}
    (h : frameEvents wrap numX numY s draw = some L) {o : Option (ℕ × ℕ)} (ho : o ∈ L) :
    0 < numX ∧ 0 < numY ∧ ∃ x y d, o = electronTarget wrap numX numY x y d := by
  obtain ⟨rfl, h2⟩ := frameEvents_eq h
  simp only [List.mem_flatMap, List.mem_range] at ho
  obtain ⟨x, hx, y, hy, j, hj, ho⟩ := ho
  obtain ⟨z, -, e⟩ := photonEvents_eq (h2 x hx y hy j hj)
  rw [e, Option.getD_some, List.mem_map] at ho
  obtain ⟨k, -, rfl⟩ := ho
  exact ⟨by omega, by omega, x, y, _, rfl⟩

/-! ### Interleaving -/

theorem step_other {i : ℕ} (m : Machine) (st : ImageStep) (h : st.frame ≠ i) :
    (m.step st).result i = m.result i ∧ (m.step st).register i = m.register i := by
  cases st with
  | load k c =>
    refine ⟨rfl, ?_⟩
    simp only [Machine.step]
    rw [if_neg]
    exact fun h' => h h'.symm
  | store k c =>
    refine ⟨?_, rfl⟩
    funext c'
    simp only [Machine.step]
    rw [if_neg]
    exact fun h' => h h'.1.symm

theorem step_congr {i : ℕ} (m m' : Machine) (st : ImageStep) (h : m.result i = m'.result i)
    (hr : m.register i = m'.register i) :
    (m.step st).result i = (m'.step st).result i
      ∧ (m.step st).register i = (m'.step st).register i := by
  by_cases hi : st.frame = i
  · cases st with
    | load k c =>
      have hk : k = i := hi
      subst hk
      exact ⟨h, by simp [Machine.step, h]⟩
    | store k c =>
      have hk : k = i := hi
      subst hk
      refine ⟨?_, hr⟩
      funext c'
      simp only [Machine.step, true_and]
      rw [h, hr]
  · rw [(step_other m st hi).1, (step_other m st hi).2, (step_other m' st hi).1,
      (step_other m' st hi).2]
    exact ⟨h, hr⟩

/-- What a frame sees depends on its own steps only. -/
theorem run_filter (i : ℕ) (L : List ImageStep) (m m' : Machine) (h : m.result i = m'.result i)
    (hr : m.register i = m'.register i) :
    (L.foldl Machine.step m).result i
      = ((L.filter fun st => decide (st.frame = i)).foldl Machine.step m').result i := by
  induction L generalizing m m' with
  | nil => exact h
  | cons st L ih =>
    rw [List.foldl_cons, List.filter_cons]
    by_cases hi : st.frame = i
    · rw [if_pos (by simpa using hi), List.foldl_cons]
      obtain ⟨h1, h2⟩ := step_congr m m' st h hr
      exact ih _ _ h1 h2
    · rw [if_neg (by simpa using hi)]
      obtain ⟨h1, h2⟩ := step_other m st hi
      exact ih _ _ (h1.trans h) (h2.trans hr)

theorem run_frameSteps (i : ℕ) (events : List (Option (ℕ × ℕ))) (m : Machine) :
    ((frameSteps i events).foldl Machine.step m).result i = events.foldl deposit (m.result i) := by
  induction events generalizing m with
  | nil => rfl
  | cons o events ih =>
    unfold frameSteps at ih ⊢
    rw [List.flatMap_cons, List.foldl_append, ih, List.foldl_cons]
    congr 1
    cases o with
    | none => rfl
    | some c =>
      funext c'
      simp only [List.foldl_cons, List.foldl_nil, Machine.step, deposit, true_and, if_true]
      split
      · rename_i h; rw [h]
      · rfl

end Optika
