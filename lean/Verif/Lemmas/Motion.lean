import Verif.Model.Motion
import Verif.Lemmas.DsoSystem

set_option autoImplicit false

namespace Mdso.Motion
open Mdso.Dso Mdso.FrameSpec

variable {G : Type}

/-- The frames with a pose in `s'` are those in `s` and `A`. -/
def Only (s s' : State G) (A : List Int) : Prop :=
  ∀ n, (s'.worldToFrame n).isSome ↔ (s.worldToFrame n).isSome ∨ n ∈ A

theorem writePose_only {s s' : State G} {n : Int} {g : G} (h : writePose s n g = .ok s') :
    Only s s' [n] ∧ s'.keyFrames = s.keyFrames := by
  unfold writePose at h
  split at h <;> cases h
  refine ⟨?_, rfl⟩
  intro m
  by_cases hm : m = n <;> simp [hm]

theorem foldlM_only {α : Type} {f : State G → α → Except Err (State G)} {A : α → List Int}
    (hok : ∀ s a s', f s a = .ok s' → Only s s' (A a)) :
    ∀ (l : List α) (s s' : State G), l.foldlM f s = .ok s' → Only s s' (l.flatMap A) := by
  intro l
  induction l with
  | nil => intro s s' h; cases h; intro n; simp
  | cons a l ih =>
    intro s s' h
    rw [List.foldlM_cons] at h
    cases hf : f s a with
    | error e => rw [hf] at h; cases h
    | ok s1 =>
      rw [hf] at h
      have h1 := hok _ _ _ hf
      have h2 := ih s1 s' h
      intro n
      rw [h2 n, h1 n]; simp [or_assoc]

theorem refreshKeyFrame_only [Group G] {s s' : State G} {kf : KeyFrame G}
    (h : refreshKeyFrame s kf = .ok s') : Only s s' (kf.num :: kf.trackedFrames.map (·.num)) := by
  unfold refreshKeyFrame at h
  split at h
  · cases h
  · rename_i s1 h1
    have a := (writePose_only h1).1
    have b := foldlM_only (A := fun f : Tracked G => [f.num]) (fun s f s' h => (writePose_only h).1) _ _ _ h
    intro n
    rw [b n, a n]
    simp only [List.mem_flatMap, List.mem_singleton, List.mem_cons, List.mem_map, List.not_mem_nil,
      or_false]
    grind

theorem runBA_only [Group G] {set : Settings} {s s' : State G} {ba : Int → G}
    (h : runBundleAdjustment set s ba = .ok s') :
    ∃ A, Only s s' A ∧ ∀ n ∈ A, n ∈ framesOf s.keyFrames := by
  unfold runBundleAdjustment at h
  split at h
  · cases h; exact ⟨[], by intro n; simp, by simp⟩
  · split at h
    · cases h
    · refine ⟨framesOf s.keyFrames, ?_, fun n h => h⟩
      have := foldlM_only (f := refreshKeyFrame (G := G))
        (A := fun kf => kf.num :: kf.trackedFrames.map (·.num))
        (fun s kf s' h => refreshKeyFrame_only h) _ _ _ h
      intro n
      rw [this n]
      simp [framesOf, List.flatMap_map]

theorem framesOf_mapInsert {kf : KeyFrame G} {W : List (KeyFrame G)} :
    ∀ n ∈ framesOf (mapInsert kf W), n ∈ framesOf W ∨ n ∈ framesOf [kf] := by
  induction W with
  | nil => intro n h; right; exact h
  | cons k ks ih =>
    intro n h
    unfold mapInsert at h
    split at h
    · simp only [framesOf, List.flatMap_cons, List.mem_append] at h ⊢; grind
    · split at h
      · left; exact h
      · simp only [framesOf, List.flatMap_cons, List.mem_append] at h ⊢
        rcases h with h | h
        · left; left; exact h
        · have := ih n h
          simp only [framesOf, List.flatMap_cons, List.mem_append] at this
          grind

theorem framesOf_marginalize {set : Settings} {s : State G} :
    (∀ n ∈ framesOf (marginalizeFrames set s).keyFrames, n ∈ framesOf s.keyFrames) ∧
      (marginalizeFrames set s).worldToFrame = s.worldToFrame := by
  unfold marginalizeFrames
  split
  · refine ⟨?_, rfl⟩
    intro n h
    simp only [framesOf, List.mem_flatMap] at h ⊢
    obtain ⟨k, hk, h⟩ := h
    exact ⟨k, List.mem_of_mem_drop hk, h⟩
  · exact ⟨fun n h => h, rfl⟩

theorem addFrameTrack_only [Group G] {set : Settings} {s : State G} {x : FrameIn G}
    {r : State G × Option Int} (h : addFrameTrack set s x = .ok r)
    (hW : ∀ n ∈ framesOf s.keyFrames, (s.worldToFrame n).isSome) : Only s r.1 [x.num] := by
  unfold addFrameTrack at h
  split at h
  · cases h
  simp only at h
  split at h
  · cases h
  split at h
  · cases h
  rename_i s2 h2
  obtain ⟨h2', hk2⟩ := writePose_only h2
  have h2'' : Only s s2 [x.num] := h2'
  have hk2' : s2.keyFrames = s.keyFrames := hk2
  split at h
  · cases h
  split at h
  · split at h
    · cases h
    · cases h; exact h2''
  · split at h
    · split at h
      · cases h
      · rename_i s3 h3
        cases h
        unfold addKeyFrame at h3
        simp only at h3
        split at h3
        · cases h3
        · obtain ⟨A, h4, hA⟩ := runBA_only h3
          have hA' : ∀ n ∈ A, (s2.worldToFrame n).isSome := by
            intro n hn
            have := hA n hn
            have := framesOf_marginalize.1 n this
            rcases framesOf_mapInsert n this with h | h
            · rw [hk2'] at h
              rw [h2'' n]; left; exact hW n h
            · rw [h2'' n]; right
              simpa [framesOf] using h
          intro n
          show (s3.worldToFrame n).isSome ↔ _
          rw [h4 n]
          simp only [framesOf_marginalize.2]
          rw [← h2'' n]
          constructor
          · rintro (h | h)
            · exact h
            · exact hA' n h
          · intro h; left; exact h
    · cases h; exact h2''

theorem addFrameInit_only [Group G] {set : Settings} {s : State G} {x : FrameIn G}
    {r : State G × Option Int} (h : addFrameInit set s x = .ok r) :
    Only s r.1 (if (s.initializer.addFrame set x.num).2 then
      [(s.initializer.addFrame set x.num).1.globalFrameNum0, x.num] else []) := by
  unfold addFrameInit at h
  simp only at h
  split at h
  · rename_i hb
    cases h
    rw [if_neg (by simpa using hb)]
    intro n; simp
  · rename_i hb
    rw [if_pos (by simpa using hb)]
    split at h
    · cases h
    · rename_i s2 h2
      have h2' := foldlM_only (A := fun f : KeyFrame G => [f.num]) (fun s f s' h => (writePose_only h).1) _ _ _ h2
      split at h
      · cases h
        intro n
        show (s2.worldToFrame n).isSome ↔ _
        rw [h2' n]
        simp [Initializer.createKeyFrames]
      · cases h

theorem addFrame_only [Group G] {set : Settings} {s : State G} {ns : List Int}
    (hf : s.frameNumbers = ns) {x : FrameIn G} (ha : Acceptable ns x.num) (hm : x.num < intMax)
    {r : State G × Option Int} (h : addFrame set s x = .ok r)
    (hW : ∀ n ∈ framesOf s.keyFrames, (s.worldToFrame n).isSome) :
    Only s r.1 (if s.isInitialized then [x.num] else
      if (s.initializer.addFrame set x.num).2 then
      [(s.initializer.addFrame set x.num).1.globalFrameNum0, x.num] else []) := by
  obtain ⟨T, _, _, e⟩ := addFrame_eq (set := set) hf ha hm
  rw [e] at h
  split at h
  · rename_i hb
    rw [if_neg (by simpa using hb)]
    have := addFrameInit_only h
    exact this
  · rename_i hb
    rw [if_pos (by simpa using hb)]
    have := addFrameTrack_only h hW
    exact this

/-- The frames with a pose, before and after initialization. -/
def Known (set : Settings) (s : State G) (ns : List Int) : Prop :=
  ∀ n, (s.worldToFrame n).isSome ↔
    (policyOf set).skip + 2 ≤ ns.length ∧ n ∈ ns.take 1 ++ ns.drop ((policyOf set).skip + 1)

theorem window_known [Group G] {set : Settings} {s : State G} {ns : List Int} (hi : Inv set s ns) :
    ∀ n ∈ framesOf s.keyFrames, (s.worldToFrame n).isSome := by
  intro n hn
  simp only [framesOf, List.mem_flatMap] at hn
  obtain ⟨kf, hkf, hn⟩ := hn
  have := hi.poses kf hkf
  rcases List.mem_cons.1 hn with rfl | hn
  · rw [this.1]; rfl
  · obtain ⟨f, hf, rfl⟩ := List.mem_map.1 hn
    rw [this.2 f hf]; rfl

theorem step_known [Group G] {set : Settings} {s s' : State G} {ns : List Int} (hi : Inv set s ns)
    (hk : Known set s ns) {x : FrameIn G} (ha : Acceptable ns x.num) (hm : x.num < intMax)
    {o : Option Int} (h : addFrame set s x = .ok (s', o)) : Known set s' (ns ++ [x.num]) := by
  have ho := addFrame_only hi.frames ha hm h (window_known hi)
  intro n
  have ho := ho n
  simp only at ho
  rw [ho, hk n]
  by_cases h2 : (policyOf set).skip + 2 ≤ ns.length
  · have hini : s.isInitialized = true := by rw [hi.initd]; simpa using h2
    rw [if_pos hini, List.take_append_of_le_length (by omega), List.drop_append_of_le_length (by omega)]
    simp only [h2, true_and, List.length_append, List.length_singleton]
    simp only [List.mem_append, List.mem_singleton]
    constructor
    · rintro ((h | h) | h)
      · exact ⟨by omega, Or.inl h⟩
      · exact ⟨by omega, Or.inr (Or.inl h)⟩
      · exact ⟨by omega, Or.inr (Or.inr h)⟩
    · rintro ⟨_, h | h | h⟩
      · exact Or.inl (Or.inl h)
      · exact Or.inl (Or.inr h)
      · exact Or.inr h
  · have hini : s.isInitialized = false := by rw [hi.initd]; simpa using h2
    rw [if_neg (by simp [hini]), (hi.ini (by omega)).2]
    simp only [h2, false_and, false_or]
    cases ns with
    | nil => simp [iniSpec, Initializer.addFrame]
    | cons f rest =>
      simp only [iniSpec, Initializer.addFrame]
      by_cases h3 : (rest.length : Int) < set.firstFramesSkip
      · simp [h3, policyOf]
      · simp only [Bool.not_true, Bool.false_eq_true, if_false, h3, if_true]
        have hl : rest.length = (policyOf set).skip := by
          simp [policyOf] at h2 ⊢; omega
        simp [← hl]

theorem run_known [Group G] {set : Settings} (hv : Valid set) :
    ∀ (xs : List (FrameIn G)) {s : State G} {ns : List Int}, Inv set s ns → Known set s ns →
    (ns ++ xs.map (·.num)).Pairwise (· < ·) → (∀ x ∈ xs, 0 < x.num ∧ x.num < intMax) →
    ∃ s' rs, run set s xs = .ok (s', rs) ∧ Inv set s' (ns ++ xs.map (·.num)) ∧
      Known set s' (ns ++ xs.map (·.num)) := by
  intro xs
  induction xs with
  | nil => intro s ns hi hw _ _; exact ⟨s, [], rfl, by simpa using hi, by simpa using hw⟩
  | cons x xs ih =>
    intro s ns hi hw hp hb
    have hacc : Acceptable ns x.num := by
      refine ⟨(hb x (by simp)).1, fun m hm => ?_⟩
      exact (List.pairwise_append.1 hp).2.2 m hm x.num (by simp)
    have hm := (hb x (by simp)).2
    have hp' : ((ns ++ [x.num]) ++ xs.map (·.num)).Pairwise (· < ·) := by simpa using hp
    have hb' : ∀ x ∈ xs, 0 < x.num ∧ x.num < intMax := fun y hy => hb y (by simp [hy])
    have step : ∃ s1 o, addFrame set s x = .ok (s1, o) ∧ Inv set s1 (ns ++ [x.num]) := by
      by_cases h1 : ns.length < (policyOf set).skip + 1
      · obtain ⟨s1, e, hi1, _⟩ := step_skip hi hacc hm h1
        exact ⟨s1, none, e, hi1⟩
      · by_cases h2 : ns.length = (policyOf set).skip + 1
        · obtain ⟨s1, _, _, _, e, hi1, _⟩ := step_init hv hi hacc hm h2
          exact ⟨s1, _, e, hi1⟩
        · obtain ⟨s1, _, e, hi1, _⟩ := step_track hv hi hacc hm (by omega)
          exact ⟨s1, _, e, hi1⟩
    obtain ⟨s1, o, e1, hi1⟩ := step
    obtain ⟨s2, os, e2, hi2, hw2⟩ := ih hi1 (step_known hi hw hacc hm e1) hp' hb'
    refine ⟨s2, o :: os, ?_, by simpa using hi2, by simpa using hw2⟩
    unfold run; rw [e1]; simp only; rw [e2]

theorem run_create_known [Group G] {set : Settings} (hv : Valid set) {s0 : State G}
    (hc : create set = .ok s0) {xs : List (FrameIn G)} (hl : Legal (xs.map (·.num))) :
    ∃ s rs, run set s0 xs = .ok (s, rs) ∧ Inv set s (xs.map (·.num)) ∧
      Known set s (xs.map (·.num)) := by
  obtain ⟨s, rs, e, hi, hk⟩ := run_known hv xs (inv_create hc) (by
    intro n; unfold create at hc; split at hc <;> cases hc; simp) (by simpa using hl.1) (by simpa using hl.2)
  exact ⟨s, rs, e, by simpa using hi, by simpa using hk⟩

end Mdso.Motion
