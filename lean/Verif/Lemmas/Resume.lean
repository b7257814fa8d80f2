import Verif.Lemmas.DsoSystem
import Verif.Spec.Resume

/-!
# Lemmas about resuming
-/

set_option autoImplicit false

namespace Mdso.Dso

open Mdso.ResumeSpec

variable {G : Type}

theorem foldlM_register_ok (ws : List (Int × G)) (s : State G)
    (h : ∀ w ∈ ws, 0 < w.1 ∧ w.1 < intMax) :
    ∃ T, s.tableSize ≤ T ∧ (∀ w ∈ ws, w.1 < T) ∧
      ws.foldlM (fun s w => register s w.1 w.2) s =
        .ok { s with
          frameNumbers := s.frameNumbers ++ ws.map Prod.fst
          tableSize := T
          worldToFrame := applyWrites s.worldToFrame ws } := by
  induction ws generalizing s with
  | nil => exact ⟨s.tableSize, Int.le_refl _, by simp, by simp [applyWrites]; rfl⟩
  | cons w ws ih =>
    have hw := h w (by simp)
    obtain ⟨T1, e1, hT1, hT1'⟩ := adjust_ok
      (s := { s with frameNumbers := s.frameNumbers ++ [w.1] }) hw.1 hw.2
    have er : register s w.1 w.2 = .ok { s with
        frameNumbers := s.frameNumbers ++ [w.1]
        tableSize := T1
        worldToFrame := fun i => if i = w.1 then some w.2 else s.worldToFrame i } := by
      unfold register
      rw [e1]
      exact writePose_ok ⟨by omega, hT1'⟩
    obtain ⟨T, hT, hT', e⟩ := ih { s with
        frameNumbers := s.frameNumbers ++ [w.1]
        tableSize := T1
        worldToFrame := fun i => if i = w.1 then some w.2 else s.worldToFrame i }
      (fun v hv => h v (by simp [hv]))
    refine ⟨T, Int.le_trans hT1 hT, ?_, ?_⟩
    · intro v hv
      rcases List.mem_cons.1 hv with rfl | hv
      · exact Int.lt_of_lt_of_le hT1' hT
      · exact hT' v hv
    · rw [List.foldlM_cons, er]
      refine Eq.trans e ?_
      simp [applyWrites]

/-- All registrations of one keyframe. -/
def resumeWrites [Group G] (observers : Nat) (kf : KeyFrame G) : List (Int × G) :=
  (kf.num, kf.thisToWorld⁻¹) ::
    (List.replicate observers
      (kf.trackedFrames.map (fun f => (f.num, f.baseToThis * kf.thisToWorld⁻¹)))).flatten

theorem registerTracked_eq [Group G] (kf : KeyFrame G) : ∀ (n : Nat) (s : State G),
    registerTracked kf n s =
      (List.replicate n
        (kf.trackedFrames.map (fun f => (f.num, f.baseToThis * kf.thisToWorld⁻¹)))).flatten.foldlM
        (fun s w => register s w.1 w.2) s
  | 0, s => rfl
  | n + 1, s => by
    unfold registerTracked
    rw [List.replicate_succ, List.flatten_cons, List.foldlM_append, List.foldlM_map]
    cases List.foldlM (fun s f => register s f.num (f.baseToThis * kf.thisToWorld⁻¹)) s
      kf.trackedFrames with
    | error e => rfl
    | ok s => exact registerTracked_eq kf n s

theorem resumeKeyFrame_eq [Group G] (observers : Nat) (kf : KeyFrame G) (s : State G) :
    resumeKeyFrame observers s kf =
      (resumeWrites observers kf).foldlM (fun s w => register s w.1 w.2) s := by
  unfold resumeKeyFrame resumeWrites
  rw [List.foldlM_cons]
  cases register s kf.num kf.thisToWorld⁻¹ with
  | error e => rfl
  | ok s => exact registerTracked_eq kf observers s

theorem resumeLoop_eq [Group G] (observers : Nat) (kfs : List (KeyFrame G)) (s : State G) :
    kfs.foldlM (resumeKeyFrame observers) s =
      (kfs.flatMap (resumeWrites observers)).foldlM (fun s w => register s w.1 w.2) s := by
  induction kfs generalizing s with
  | nil => rfl
  | cons kf kfs ih =>
    rw [List.foldlM_cons, List.flatMap_cons, List.foldlM_append, resumeKeyFrame_eq]
    congr 1
    funext s'
    exact ih s'

theorem noTracked_iff (kfs : List (KeyFrame G)) (h : 2 ≤ kfs.length) :
    noTracked kfs = false ↔ ∃ kf ∈ kfs.drop (kfs.length - 2), kf.trackedFrames ≠ [] := by
  unfold noTracked
  have hl : 2 ≤ kfs.reverse.length := by simpa using h
  match e : kfs.reverse, hl with
  | a :: b :: r, _ =>
    have hk : kfs = r.reverse ++ [b, a] := by
      have := congrArg List.reverse e
      simpa using this
    have hd : kfs.drop (kfs.length - 2) = [b, a] := by
      rw [hk]; simp
    rw [hd]
    simp only [Bool.and_eq_false_iff, List.isEmpty_eq_false_iff, List.mem_cons, List.not_mem_nil,
      or_false, exists_eq_or_imp, exists_eq_left]
    tauto

/-- What resuming does, for any number of observers. -/
theorem resume_ok [Group G] {set : Settings} (hset : 0 ≤ set.initialMaxFrame) (observers : Nat)
    {kfs : List (KeyFrame G)} (h : Resumable kfs) :
    ∃ s T, resume set observers kfs = .ok s ∧ s.keyFrames = kfs ∧ s.isInitialized = true ∧
      s.log = kfs.flatMap resumeEvents ∧
      s.frameNumbers = (kfs.flatMap (resumeWrites observers)).map Prod.fst ∧
      s.worldToFrame = applyWrites (fun _ => none) (kfs.flatMap (resumeWrites observers)) ∧
      s.tableSize = T ∧ ∀ w ∈ kfs.flatMap (resumeWrites observers), w.1 < T := by
  have hw : ∀ w ∈ kfs.flatMap (resumeWrites observers), 0 < w.1 ∧ w.1 < intMax := by
    intro w hw
    refine h.range _ ?_
    obtain ⟨kf, hkf, hw⟩ := List.mem_flatMap.1 hw
    unfold windowFrames
    refine List.mem_flatMap.2 ⟨kf, hkf, ?_⟩
    unfold resumeWrites at hw
    rcases List.mem_cons.1 hw with rfl | hw
    · simp
    · obtain ⟨l, hl, hw⟩ := List.mem_flatten.1 hw
      obtain ⟨-, rfl⟩ := List.mem_replicate.1 hl
      obtain ⟨f, hf, rfl⟩ := List.mem_map.1 hw
      simp only [List.mem_cons, List.mem_map]
      exact .inr ⟨f, hf, rfl⟩
  have h2 := h.two
  obtain ⟨T, hT, hT', e⟩ := foldlM_register_ok _
    { initializer := { hasFirstFrame := false, framesSkipped := 0, globalFrameNum0 := 0 }
      isInitialized := true
      keyFrames := kfs
      frameNumbers := []
      tableSize := set.initialMaxFrame
      worldToFrame := fun _ => none
      log := kfs.flatMap resumeEvents } hw
  unfold resume
  rw [if_neg (by omega), if_neg (by omega), resumeLoop_eq, e]
  have hn := (noTracked_iff kfs h.two).2 h.tracked
  exact ⟨_, T, by simp only [hn]; rfl, rfl, rfl, rfl, by simp, rfl, rfl, hT'⟩

theorem resumeWrites_fst [Group G] (observers : Nat) (kfs : List (KeyFrame G)) :
    (kfs.flatMap (resumeWrites observers)).map Prod.fst =
      kfs.flatMap (fun kf => kf.num ::
        (List.replicate observers (kf.trackedFrames.map (·.num))).flatten) := by
  simp [resumeWrites, List.map_flatMap, List.map_flatten, Function.comp_def]

theorem applyWrites_fun (ws : List (Int × G)) (t : Int → Option G) (i : Int) (g : G)
    (hf : ∀ g', (i, g') ∈ ws → g' = g) (h : (i, g) ∈ ws ∨ t i = some g) :
    applyWrites t ws i = some g := by
  induction ws generalizing t with
  | nil => simpa [applyWrites] using h
  | cons w ws ih =>
    unfold applyWrites
    refine ih _ (fun g' hg' => hf g' (by simp [hg'])) ?_
    by_cases hw : i = w.1
    · right
      have : w.2 = g := hf w.2 (by subst hw; simp)
      simp [hw, this]
    · rcases h with h | h
      · rcases List.mem_cons.1 h with rfl | h
        · exact absurd rfl hw
        · exact .inl h
      · right
        simp [hw, h]

end Mdso.Dso
