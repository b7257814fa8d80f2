import Verif.Props.Session
import Verif.Props.AffineLight

/-!
# Properties of sessions: C129, the light transforms of the keyframes
-/

set_option autoImplicit false

namespace Mdso.Session

open Mdso.Dso Mdso.Light Mdso.FrameSpec Mdso.ResumeSpec

variable {G : Type}

/-- Whether a frame becomes a keyframe, in terms of the book. -/
theorem keyFrames_track [Group G] {set : Settings} (hv : Valid set) {s : Dso.State G} {ns : List Int} (hi : Inv set s ns) {n : Int}
    (ha : Acceptable ns n) (hl : (policyOf set).skip + 2 ≤ ns.length) {need : Bool} (hn : doNeedKf set s.keyFrames n = .ok need) :
    (book (policyOf set) (ns ++ [n])).keyFrames =
      (book (policyOf set) ns).keyFrames ++ (if need && set.continueChoosingKeyFrames then [n] else []) := by
  obtain ⟨hW2, hWd, hBl, hWns, hWnd⟩ := window_facts hv hi hl
  have hWne : s.keyFrames ≠ [] := by intro h; rw [h] at hW2; simp at hW2
  obtain ⟨last, hlast⟩ : ∃ last, s.keyFrames.getLast? = some last := ⟨_, List.getLast?_eq_some_getLast hWne⟩
  have hlastn : last.num < n :=
    ha.2 _ (hWns _ (mem_framesOf.2 ⟨last, List.mem_of_getLast? hlast, Or.inl rfl⟩))
  rw [doNeedKf_ok hv.shift hlast hlastn] at hn
  cases hn
  have hBlast : (FrameSpec.book (policyOf set) ns).getLast? = some (entry last) := by
    rw [← hi.book, List.map_append, List.getLast?_append, List.getLast?_map, hlast]; rfl
  rw [book_snoc hl]
  unfold track
  rw [hBlast]
  show Book.keyFrames (if set.shiftBetweenKeyFrames ∣ n - last.num then (if set.continueChoosingKeyFrames = true then _ else _) else _) = _
  by_cases hd : set.shiftBetweenKeyFrames ∣ n - last.num
  · cases hcc : set.continueChoosingKeyFrames with
    | true => simp [hd, Book.keyFrames]
    | false => simp [hd]
  · rw [if_neg hd, attach_keyFrames]
    simp [hd]

theorem keyFrame_mem_book [Group G] {set : Settings} {s : Dso.State G} {ns : List Int} (hi : Inv set s ns) {kf : KeyFrame G}
    (h : kf ∈ s.keyFrames) : kf.num ∈ (book (policyOf set) ns).keyFrames := by
  rw [← hi.book]
  simp only [Book.keyFrames, List.mem_map]
  exact ⟨entry kf, ⟨kf, by simp [h], rfl⟩, rfl⟩

theorem book_keyFrames_sub {p : Policy} {ns : List Int} {n : Int} (h : n ∈ (book p ns).keyFrames) : n ∈ ns := by
  refine (frames_subperm (p := p) (ns := ns)).subset ?_
  simp only [Book.keyFrames, List.mem_map] at h
  obtain ⟨en, he, rfl⟩ := h
  simp only [Book.frames, List.mem_flatMap]
  exact ⟨en, he, by simp⟩

/-- What holds of the lights when bundle adjustment is off. -/
structure LInv (set : Settings) (s : State G) (ops : List (Op G)) : Prop where
  early : s.sys.isInitialized = false → ∀ n, s.lights n = .identity
  kf : ∀ n ∈ (book (policyOf set) (numbers ops)).keyFrames,
    (n ∉ s.calls.map (·.num) ∧ s.lights n = .identity) ∨ ∃ c ∈ s.calls, c.num = n ∧ s.lights n = c.light.mul (s.lights c.base)

theorem calls_base_mem [Group G] {set : Settings} {all : List Nat} {s : State G} {ops : List (Op G)} (h : SInv set all s ops) :
    ∀ c ∈ s.calls, c.base ∈ numbers ops := by
  intro c hc
  obtain ⟨i, hi⟩ := List.mem_iff_getElem?.1 hc
  exact List.mem_of_mem_take (baseOf_lt (h.chain i c hi).2)

theorem step_lights [Group G] {set : Settings} (hv : Valid set) (hba : set.runBA = false) {all : List Nat} {s : State G} {ops : List (Op G)}
    (h : SInv set all s ops) (hL : LInv set s ops) {x : FrameInput G} (ha : Acceptable (numbers ops) x.num) (hm : x.num < intMax) :
    ∃ s', step set s (.frame x) = .ok s' ∧ SInv set all s' (ops ++ [.frame x]) ∧ LInv set s' (ops ++ [.frame x]) := by
  obtain ⟨s', e, h'⟩ := step_frame hv h ha hm
  refine ⟨s', e, h', ?_⟩
  have hn : numbers (ops ++ [Op.frame x]) = numbers ops ++ [x.num] := by simp
  by_cases hl : (policyOf set).skip + 2 ≤ (numbers ops).length
  · have hini : s.sys.isInitialized = true := by rw [h.dso.initd]; simpa using hl
    have hini' : s'.sys.isInitialized = true := by rw [h'.dso.initd, hn]; simp; omega
    obtain ⟨sys, base, need, b', e1, hi', -, hb, hnd, -⟩ := track_detail hv h.dso
      (x := ⟨x.num, x.stereo, (x.track s.lightKfToLast).1, x.ba⟩) ha hm hl
    have htrk : s.tracker = some s.observers := by rw [h.trk, hini]; rfl
    have hbase : base.num ∈ numbers ops := baseOf_lt (base_num hv h.dso hl hb)
    simp only [step, hini, Bool.not_true, Bool.false_eq_true, if_false, frameTrack, htrk, hb, hnd, e1] at e
    cases e
    refine ⟨fun hc => (by rw [hini'] at hc; exact absurd hc (by simp)), ?_⟩
    have hkf := keyFrames_track hv h.dso ha hl hnd
    have hold : ∀ n ∈ numbers ops, n ≠ x.num := fun n hn hc => by have := ha.2 n hn; omega
    rw [hn, hkf]
    cases hk : (need && set.continueChoosingKeyFrames) with
    | false =>
      simp only [Bool.false_eq_true, if_false, List.append_nil]
      intro n hmem
      rcases hL.kf n hmem with ⟨h1, h2⟩ | ⟨c, h1, h2, h3⟩
      · refine Or.inl ⟨?_, h2⟩
        simp only [List.map_append, List.mem_append, not_or]
        exact ⟨h1, by simpa using hold n (book_keyFrames_sub hmem)⟩
      · exact Or.inr ⟨c, by simp [h1], h2, h3⟩
    | true =>
      have hval : ∀ n, n ≠ x.num → newLights set s.lights sys.keyFrames x.num base.num (x.track s.lightKfToLast).2 x.baLight n = s.lights n := by
        intro n hne
        simp [newLights, hba, hne]
      simp only [if_true]
      intro n hmem
      rcases List.mem_append.1 hmem with hmem | hmem
      · have hne := hold n (book_keyFrames_sub hmem)
        rw [hval n hne]
        rcases hL.kf n hmem with ⟨h1, h2⟩ | ⟨c, h1, h2, h3⟩
        · refine Or.inl ⟨?_, h2⟩
          simp only [List.map_append, List.mem_append, not_or]
          exact ⟨h1, by simpa using hne⟩
        · refine Or.inr ⟨c, by simp [h1], h2, ?_⟩
          rw [hval _ (hold _ (calls_base_mem h c h1))]
          exact h3
      · simp only [List.mem_singleton] at hmem
        subst hmem
        refine Or.inr ⟨_, List.mem_append_right _ (List.mem_singleton.2 rfl), rfl, ?_⟩
        simp only
        rw [hval _ (hold _ hbase)]
        simp [newLights, hba]
  · have hini : s.sys.isInitialized = false := by rw [h.dso.initd]; simpa using hl
    have hcalls : s.calls = [] := by
      have := congrArg List.length h.nums
      simp at this
      exact List.eq_nil_of_length_eq_zero (by omega)
    simp only [step, hini, Bool.not_false, if_true, frameInit] at e
    cases hd : Dso.addFrame set s.sys ⟨x.num, x.stereo, 1, x.ba⟩ with
    | error er => rw [hd] at e; cases e
    | ok r =>
      rw [hd] at e
      cases e
      exact ⟨fun _ => hL.early hini, fun n _ => Or.inl ⟨by simp [hcalls], hL.early hini n⟩⟩

theorem run_lights [Group G] {set : Settings} (hv : Valid set) (hba : set.runBA = false) {all : List Nat} :
    ∀ (ops' : List (Op G)) {s : State G} {ops : List (Op G)},
    SInv set all s ops → LInv set s ops → (numbers (ops ++ ops')).Pairwise (· < ·) → (∀ n ∈ numbers ops', 0 < n ∧ n < intMax) →
    ∃ s', run set s ops' = .ok s' ∧ SInv set all s' (ops ++ ops') ∧ LInv set s' (ops ++ ops') := by
  intro ops'
  induction ops' with
  | nil => intro s ops h hL _ _; exact ⟨s, rfl, by simpa using h, by simpa using hL⟩
  | cons o rest ih =>
    intro s ops h hL hp hb
    have e : ops ++ o :: rest = ops ++ [o] ++ rest := by simp
    have key : ∃ s', step set s o = .ok s' ∧ SInv set all s' (ops ++ [o]) ∧ LInv set s' (ops ++ [o]) := by
      cases o with
      | observer o =>
        obtain ⟨s', e, h'⟩ := step_observer h o
        refine ⟨s', e, h', ?_⟩
        cases e
        have hn : numbers (ops ++ [Op.observer o]) = numbers ops := by simp
        exact ⟨hL.early, by rw [hn]; exact hL.kf⟩
      | frame x =>
        refine step_lights hv hba h hL ⟨(hb x.num (by simp [numbers])).1, ?_⟩ (hb x.num (by simp [numbers])).2
        intro m hm
        rw [numbers_append, List.pairwise_append] at hp
        exact hp.2.2 m hm x.num (by simp [numbers])
    obtain ⟨s1, e1, h1, hL1⟩ := key
    obtain ⟨s2, e2, h2, hL2⟩ := ih h1 hL1 (by rw [← e]; exact hp)
      (fun n hn => hb n (by simp only [numbers, List.flatMap_cons, List.mem_append] at hn ⊢; exact Or.inr hn))
    refine ⟨s2, ?_, by rw [e]; exact h2, by rw [e]; exact hL2⟩
    simp only [run, e1, e2]

/-- The light transform of keyframe `n` is the one from the world to its base keyframe followed by the one tracking found between the
two. -/
def Chained (s : State G) (c : Call G) : Prop :=
  ∀ x, (s.lights c.num).apply x = c.light.apply ((s.lights c.base).apply x)

/-- C129, without bundle adjustment: a keyframe made at initialization changes no intensity. One made from a tracked frame has the
transform of the keyframe it was tracked against followed by the one tracking found, exactly if the former has unit multiplier or the
offset of the result vanishes; the multiplier is right in any case. -/
theorem C129_chain_partial [Group G] {set : Settings} (hv : Valid set) (hba : set.runBA = false) {given inCreated : List Nat} {s0 : State G}
    (hc : create set given inCreated = .ok s0) {ops : List (Op G)} (hl : Legal (numbers ops)) :
    ∃ s, run set s0 ops = .ok s ∧ ∀ kf ∈ s.sys.keyFrames,
      (kf.num ∉ s.calls.map (·.num) → ∀ x, (s.lights kf.num).apply x = x) ∧
      ∀ c ∈ s.calls, c.num = kf.num →
        (Chained s c ↔ (s.lights c.base).a = 0 ∨ c.light.b = -(Real.exp (s.lights c.base).a * (s.lights c.base).b)) ∧
        ∀ x y, (s.lights kf.num).apply x - (s.lights kf.num).apply y
          = c.light.apply ((s.lights c.base).apply x) - c.light.apply ((s.lights c.base).apply y) := by
  have hL0 : LInv set s0 [] := by
    unfold create at hc
    cases hd : Dso.create (G := G) set with
    | error e => rw [hd] at hc; cases hc
    | ok s1 => rw [hd] at hc; cases hc; exact ⟨fun _ _ => rfl, by simp [numbers, book, Book.keyFrames]⟩
  obtain ⟨s, e, h, hL⟩ := run_lights hv hba ops (sinv_create hc) hL0 (by simpa using hl.1) hl.2
  rw [List.nil_append] at h hL
  refine ⟨s, e, fun kf hkf => ?_⟩
  have hb := keyFrame_mem_book h.dso hkf
  have hnodup : (s.calls.map (·.num)).Nodup := by
    rw [h.nums]
    refine List.Nodup.sublist (List.drop_sublist _ _) ?_
    exact h.dso.sorted.imp (fun hlt heq => by omega)
  refine ⟨fun hno x => ?_, fun c hcm hcn => ?_⟩
  · rcases hL.kf _ hb with ⟨-, h2⟩ | ⟨c, h1, h2, -⟩
    · rw [h2]; simp [AffLight.identity, AffLight.apply]
    · exact absurd (List.mem_map.2 ⟨c, h1, h2⟩) hno
  · rcases hL.kf _ hb with ⟨h1, -⟩ | ⟨c', h1, h2, h3⟩
    · exact absurd (List.mem_map.2 ⟨c, hcm, hcn⟩) h1
    · have : c' = c := List.inj_on_of_nodup_map hnodup h1 hcm (by rw [h2, hcn])
      subst this
      refine ⟨?_, fun x y => ?_⟩
      · unfold Chained
        rw [h2, h3]
        constructor
        · intro hall; exact (C36_compose_partial _ _ 0).1 (hall 0)
        · intro hcase x; exact (C36_compose_partial _ _ x).2 hcase
      · rw [h3]
        simp only [AffLight.mul, AffLight.apply, Real.exp_add]
        ring

/-- Seven frames; tracking finds the multiplier `e` and the offset 1 for every frame. -/
def exLightOps : List (Op (Multiplicative Int)) :=
  [1, 2, 3, 4, 5, 6, 7].map fun n => .frame
    { num := n, stereo := Multiplicative.ofAdd 5, track := fun _ => (Multiplicative.ofAdd n, ⟨1, 1⟩)
      ba := fun k => Multiplicative.ofAdd (k + 100), baLight := fun k => ⟨k, 3⟩ }

def exNoBA : Settings := { exSettings with runBA := false }

theorem exNoBA_created : create exNoBA [7] [8] = .ok exSession := rfl

theorem exLightOps_legal : Legal (numbers exLightOps) := ⟨by decide, by decide⟩

example := C129_chain_partial (set := exNoBA) ⟨by decide, by decide⟩ rfl exNoBA_created exLightOps_legal

/-- C129 is violated: with frames 1 to 7, keyframe 7 was tracked against keyframe 5, and its light transform is not that of keyframe 5
followed by the one tracking found. -/
theorem C129_chain_violated : ∃ s, run exNoBA exSession exLightOps = .ok s ∧ 7 ∈ s.sys.keyFrames.map (·.num) ∧
    ∃ c ∈ s.calls, c.num = 7 ∧ c.base = 5 ∧ 5 ∈ s.sys.keyFrames.map (·.num) ∧ ¬ Chained s c := by
  obtain ⟨s, e, h⟩ := C129_chain_partial (set := exNoBA) ⟨by decide, by decide⟩ rfl exNoBA_created exLightOps_legal
  have hr : ∃ s : State (Multiplicative Int), run exNoBA exSession exLightOps = .ok s ∧ s.sys.keyFrames.map (·.num) = [5, 7] ∧
      s.lights 5 = (⟨1, 1⟩ : AffLight).mul .identity ∧ ∃ c ∈ s.calls, c.num = 7 ∧ c.base = 5 ∧ c.light = ⟨1, 1⟩ := by
    refine ⟨_, rfl, rfl, rfl, _, List.mem_append_right _ (List.mem_singleton.2 rfl), rfl, rfl, rfl⟩
  obtain ⟨s', e', hk, h5, c, hc, h1, h2, h3⟩ := hr
  rw [e] at e'
  cases e'
  refine ⟨s, e, by rw [hk]; simp, c, hc, h1, h2, by rw [hk]; simp, ?_⟩
  obtain ⟨kf, hkf, hn⟩ : ∃ kf ∈ s.sys.keyFrames, kf.num = 7 := by
    have : (7 : Int) ∈ s.sys.keyFrames.map (·.num) := by rw [hk]; simp
    simpa using this
  rw [((h kf hkf).2 c hc (by rw [h1, hn])).1, h2, h5, h3]
  have := Real.exp_pos 1
  simp only [AffLight.mul, AffLight.identity]
  norm_num
  linarith

/-- C129, with bundle adjustment: when a tracked frame has become a keyframe, the light transforms of all keyframes of the window are
those bundle adjustment has left behind. -/
theorem C129_adjusted [Group G] {set : Settings} (hv : Valid set) (hba : set.runBA = true) {given inCreated : List Nat} {s0 : State G}
    (hc : create set given inCreated = .ok s0) {ops : List (Op G)} {x : FrameInput G} (hl : Legal (numbers (ops ++ [.frame x])))
    (hlong : set.firstFramesSkip.toNat + 2 ≤ (numbers ops).length) :
    ∃ s, run set s0 (ops ++ [.frame x]) = .ok s ∧ (x.num ∈ s.sys.keyFrames.map (·.num) →
      ∀ kf ∈ s.sys.keyFrames, s.lights kf.num = x.baLight kf.num) := by
  obtain ⟨s1, e1, h1⟩ := run_create hv hc (ops := ops) ⟨by
    have := hl.1; rw [numbers_append, List.pairwise_append] at this; exact this.1, fun n hn => hl.2 n (by rw [numbers_append]; simp [hn])⟩
  have ha : Acceptable (numbers ops) x.num := ⟨(hl.2 x.num (by simp)).1, fun m hm => by
    have := hl.1; rw [numbers_append, List.pairwise_append] at this; exact this.2.2 m hm x.num (by simp [numbers])⟩
  have hm := (hl.2 x.num (by simp)).2
  obtain ⟨s2, e2, h2⟩ := step_frame hv h1 ha hm
  refine ⟨s2, ?_, ?_⟩
  · rw [run_append, e1]
    simp only [Except.bind, run, e2]
  have hini : s1.sys.isInitialized = true := by rw [h1.dso.initd]; exact decide_eq_true hlong
  obtain ⟨sys, base, need, b', e3, hi', -, hb, hnd, -⟩ := track_detail hv h1.dso
    (x := ⟨x.num, x.stereo, (x.track s1.lightKfToLast).1, x.ba⟩) ha hm hlong
  have htrk : s1.tracker = some s1.observers := by rw [h1.trk, hini]; rfl
  simp only [step, hini, Bool.not_true, Bool.false_eq_true, if_false, frameTrack, htrk, hb, hnd, e3] at e2
  cases e2
  intro hmem kf hkf
  simp only [List.mem_map] at hmem
  obtain ⟨kf', hkf', hnum⟩ := hmem
  have hin := keyFrame_mem_book hi' hkf'
  have hkfs := keyFrames_track hv h1.dso ha hlong hnd
  simp only at hkfs hin
  rw [hnum, hkfs] at hin
  cases hk : (need && set.continueChoosingKeyFrames) with
  | false =>
    rw [hk] at hin
    simp only [Bool.false_eq_true, if_false, List.append_nil] at hin
    have := ha.2 _ (book_keyFrames_sub hin)
    omega
  | true =>
    simp only [if_true, newLights, hba, true_and]
    rw [if_pos (List.mem_map_of_mem hkf)]

example : ∃ s, run exSettings exSession exLightOps = .ok s ∧ 7 ∈ s.sys.keyFrames.map (·.num) ∧ s.lights 5 = ⟨((5 : Int) : ℝ), 3⟩ := by
  obtain ⟨s, e, h⟩ := C129_adjusted exValid rfl exSession_created (ops := exLightOps.dropLast) (x :=
    { num := 7, stereo := Multiplicative.ofAdd 5, track := fun _ => (Multiplicative.ofAdd 7, ⟨1, 1⟩)
      ba := fun k => Multiplicative.ofAdd (k + 100), baLight := fun k => ⟨k, 3⟩ }) ⟨by decide, by decide⟩ (by decide)
  have hr : ∃ s : State (Multiplicative Int), run exSettings exSession exLightOps = .ok s ∧ s.sys.keyFrames.map (·.num) = [5, 7] :=
    ⟨_, rfl, rfl⟩
  obtain ⟨s', e', hk⟩ := hr
  have e2 : run exSettings exSession exLightOps = .ok s := e
  rw [e2] at e'
  cases e'
  have h5 : (5 : Int) ∈ s.sys.keyFrames.map (·.num) := by rw [hk]; simp
  simp only [List.mem_map] at h5
  obtain ⟨kf, hkf, hn⟩ := h5
  refine ⟨s, e2, by rw [hk]; simp, ?_⟩
  have := h (by rw [hk]; simp) kf hkf
  rw [hn] at this
  exact this

end Mdso.Session
