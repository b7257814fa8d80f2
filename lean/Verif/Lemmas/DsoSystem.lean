import Verif.Spec.DsoSystem
import Verif.Lemmas.Frames
import Mathlib.Algebra.Group.Basic

set_option autoImplicit false

namespace Mdso.Dso
open Mdso.FrameSpec

variable {G : Type}

section reads
@[simp] theorem marginalizedOf_append (a b : List (Event G)) :
    marginalizedOf (a ++ b) = marginalizedOf a ++ marginalizedOf b := by simp [marginalizedOf]
@[simp] theorem newFramesOf_append (a b : List (Event G)) :
    newFramesOf (a ++ b) = newFramesOf a ++ newFramesOf b := by simp [newFramesOf]
@[simp] theorem announcedOf_append (a b : List (Event G)) :
    announcedOf (a ++ b) = announcedOf a ++ announcedOf b := by simp [announcedOf]
@[simp] theorem initializedOf_append (a b : List (Event G)) :
    initializedOf (a ++ b) = initializedOf a ++ initializedOf b := by simp [initializedOf]
@[simp] theorem destructedOf_append (a b : List (Event G)) :
    destructedOf (a ++ b) = destructedOf a ++ destructedOf b := by simp [destructedOf]
end reads

/-! ## Writes to the pose table -/

/-- The table after a list of assignments. -/
def applyWrites (t : Int → Option G) : List (Int × G) → (Int → Option G)
  | [] => t
  | w :: ws => applyWrites (fun i => if i = w.1 then some w.2 else t i) ws

theorem writePose_ok {s : State G} {n : Int} {g : G} (h : 0 ≤ n ∧ n < s.tableSize) :
    writePose s n g =
      .ok { s with worldToFrame := fun i => if i = n then some g else s.worldToFrame i } := by
  simp [writePose, h]

theorem foldlM_writePose_ok (ws : List (Int × G)) (s : State G)
    (h : ∀ w ∈ ws, 0 ≤ w.1 ∧ w.1 < s.tableSize) :
    ws.foldlM (fun s w => writePose s w.1 w.2) s
      = .ok { s with worldToFrame := applyWrites s.worldToFrame ws } := by
  induction ws generalizing s with
  | nil => rfl
  | cons w ws ih =>
    rw [List.foldlM_cons, writePose_ok (h w (by simp))]
    have := ih { s with worldToFrame := fun i => if i = w.1 then some w.2 else s.worldToFrame i }
      (fun w' hw' => h w' (by simp [hw']))
    exact this

theorem applyWrites_not_mem (ws : List (Int × G)) (t : Int → Option G) (i : Int)
    (h : i ∉ ws.map Prod.fst) : applyWrites t ws i = t i := by
  induction ws generalizing t with
  | nil => rfl
  | cons w ws ih =>
    simp only [List.map_cons, List.mem_cons, not_or] at h
    simp [applyWrites, ih _ h.2, h.1]

theorem applyWrites_mem (ws : List (Int × G)) (t : Int → Option G) (i : Int) (g : G)
    (hn : (ws.map Prod.fst).Nodup) (h : (i, g) ∈ ws) : applyWrites t ws i = some g := by
  induction ws generalizing t with
  | nil => simp at h
  | cons w ws ih =>
    simp only [List.map_cons, List.nodup_cons] at hn
    rcases List.mem_cons.1 h with rfl | h
    · rw [applyWrites, applyWrites_not_mem _ _ _ hn.1]; simp
    · exact ih _ hn.2 h

/-- All assignments of the refresh loop after bundle adjustment. -/
def refreshWrites [Group G] (kfs : List (KeyFrame G)) : List (Int × G) :=
  kfs.flatMap (fun kf => (kf.num, kf.thisToWorld⁻¹) ::
    kf.trackedFrames.map (fun f => (f.num, f.baseToThis * kf.thisToWorld⁻¹)))

theorem refresh_eq [Group G] (kfs : List (KeyFrame G)) (s : State G) :
    kfs.foldlM refreshKeyFrame s
    = (refreshWrites kfs).foldlM (fun s w => writePose s w.1 w.2) s := by
  induction kfs generalizing s with
  | nil => rfl
  | cons kf kfs ih =>
    simp only [refreshWrites, List.flatMap_cons, List.cons_append, List.foldlM_cons,
      List.foldlM_append, refreshKeyFrame]
    cases h : writePose s kf.num kf.thisToWorld⁻¹ with
    | error e => rfl
    | ok s1 =>
      show (kf.trackedFrames.foldlM _ s1 >>= _) = (List.foldlM _ s1 _ >>= _)
      rw [List.foldlM_map]
      congr 1
      funext s2
      exact ih s2

/-! ## The map of keyframes -/

theorem mapInsert_last (kf : KeyFrame G) (kfs : List (KeyFrame G))
    (h : ∀ k ∈ kfs, k.num < kf.num) : mapInsert kf kfs = kfs ++ [kf] := by
  induction kfs with
  | nil => rfl
  | cons k ks ih =>
    have hk := h k (by simp)
    rw [mapInsert, if_neg (by omega), if_neg (by omega), ih (fun k' hk' => h k' (by simp [hk']))]
    rfl

/-- Numbers of all frames of a list of keyframes. -/
def framesOf (kfs : List (KeyFrame G)) : List Int :=
  kfs.flatMap (fun kf => kf.num :: kf.trackedFrames.map (·.num))

theorem framesOf_eq (kfs : List (KeyFrame G)) : framesOf kfs = Book.frames (kfs.map entry) := by
  simp [framesOf, Book.frames, entry, List.flatMap_map]

theorem refreshWrites_fst [Group G] (kfs : List (KeyFrame G)) :
    (refreshWrites kfs).map Prod.fst = framesOf kfs := by
  simp [refreshWrites, framesOf, List.map_flatMap, Function.comp_def]

/-- Poses in the table agree with the window. -/
def PosesOk [Group G] (kfs : List (KeyFrame G)) (t : Int → Option G) : Prop :=
  ∀ kf ∈ kfs, t kf.num = some kf.thisToWorld⁻¹ ∧
    ∀ f ∈ kf.trackedFrames, t f.num = some (f.baseToThis * kf.thisToWorld⁻¹)

theorem posesOk_refresh [Group G] (kfs : List (KeyFrame G)) (t : Int → Option G)
    (hn : (framesOf kfs).Nodup) : PosesOk kfs (applyWrites t (refreshWrites kfs)) := by
  rw [← refreshWrites_fst] at hn
  intro kf hkf
  refine ⟨applyWrites_mem _ _ _ _ hn ?_, fun f hf => applyWrites_mem _ _ _ _ hn ?_⟩
  · simp only [refreshWrites, List.mem_flatMap]
    exact ⟨kf, hkf, by simp⟩
  · simp only [refreshWrites, List.mem_flatMap]
    exact ⟨kf, hkf, by simp; right; exact ⟨f, hf, rfl, rfl⟩⟩

/-! ## The invariant -/

/-- The initializer's members while frames are being skipped. -/
def iniSpec : List Int → Initializer
  | [] => { hasFirstFrame := false, framesSkipped := 0, globalFrameNum0 := 0 }
  | f :: rest => { hasFirstFrame := true, framesSkipped := rest.length, globalFrameNum0 := f }

/-- What holds after every history `ns` of accepted frames. -/
structure Inv [Group G] (set : Settings) (s : State G) (ns : List Int) : Prop where
  frames : s.frameNumbers = ns
  sorted : ns.Pairwise (· < ·)
  range : ∀ n ∈ ns, 0 < n ∧ n < s.tableSize
  initd : s.isInitialized = decide ((policyOf set).skip + 2 ≤ ns.length)
  ini : ns.length < (policyOf set).skip + 2 → s.log = [] ∧ s.initializer = iniSpec ns
  book : (marginalizedOf s.log ++ s.keyFrames).map entry = book (policyOf set) ns
  window : s.keyFrames.length = min set.maxKeyFrames.toNat (FrameSpec.book (policyOf set) ns).length
  newFrames : newFramesOf s.log = ns.drop ((policyOf set).skip + 2)
  announced : announcedOf s.log =
    if set.trackFromLastKf then (FrameSpec.book (policyOf set) ns).keyFrames.drop 1
    else (FrameSpec.book (policyOf set) ns).keyFrames.dropLast
  inits : initializedOf s.log =
    if (policyOf set).skip + 2 ≤ ns.length then
      [ns.take 1 ++ (ns.drop ((policyOf set).skip + 1)).take 1] else []
  order : ∀ pre kfs post, s.log = pre ++ .marginalized kfs :: post →
    kfs ≠ [] ∧ ∀ kf ∈ kfs, ns.head? = some kf.num ∨ kf.num ∈ announcedOf pre
  poses : PosesOk s.keyFrames s.worldToFrame

theorem inv_create [Group G] {set : Settings} {s : State G} (h : create set = .ok s) :
    Inv set s [] := by
  unfold create at h
  split at h
  · cases h
  · cases h
    constructor <;> simp [marginalizedOf, FrameSpec.book, newFramesOf, announcedOf, Book.keyFrames,
      initializedOf, PosesOk, iniSpec]

/-! ## Steps -/

theorem adjust_ok {s : State G} {n : Int} (h : 0 < n) (hm : n < intMax) :
    ∃ T, adjustWorldToFrameSizes s n = .ok { s with tableSize := T } ∧ s.tableSize ≤ T ∧ n < T := by
  unfold adjustWorldToFrameSizes
  rw [if_neg (by omega)]
  split
  · rw [if_neg (by omega)]
    exact ⟨_, rfl, by omega, by omega⟩
  · exact ⟨s.tableSize, rfl, Int.le_refl _, by omega⟩

/-- `addFrame` up to the branch on `isInitialized`. -/
theorem addFrame_eq [Group G] {set : Settings} {s : State G} {ns : List Int} (hf : s.frameNumbers = ns)
    {x : FrameIn G} (ha : Acceptable ns x.num) (hm : x.num < intMax) :
    ∃ T, s.tableSize ≤ T ∧ x.num < T ∧ addFrame set s x =
      (if !s.isInitialized then
        addFrameInit set { s with tableSize := T, frameNumbers := ns ++ [x.num] } x
       else addFrameTrack set { s with tableSize := T, frameNumbers := ns ++ [x.num] } x) := by
  obtain ⟨T, e, h1, h2⟩ := adjust_ok (s := s) ha.1 hm
  refine ⟨T, h1, h2, ?_⟩
  unfold addFrame
  rw [e]
  have : increasing s.frameNumbers x.num = true := by
    unfold increasing
    cases hl : s.frameNumbers.getLast? with
    | none => rfl
    | some l =>
      have : l ∈ ns := by rw [← hf]; exact List.mem_of_getLast? hl
      simpa using ha.2 l this
  simp only [this, if_true]
  rw [hf]

theorem sorted_snoc {ns : List Int} {n : Int} (hs : ns.Pairwise (· < ·)) (ha : Acceptable ns n) :
    (ns ++ [n]).Pairwise (· < ·) := by
  rw [List.pairwise_append]
  exact ⟨hs, by simp, by intro a h b hb; simp at hb; subst hb; exact ha.2 a h⟩

theorem range_snoc {ns : List Int} {n T T' : Int} (hr : ∀ m ∈ ns, 0 < m ∧ m < T)
    (ha : Acceptable ns n) (h1 : T ≤ T') (h2 : n < T') :
    ∀ m ∈ ns ++ [n], 0 < m ∧ m < T' := by
  intro m hm
  rcases List.mem_append.1 hm with h | h
  · have := hr m h; omega
  · simp at h; subst h; exact ⟨ha.1, h2⟩

/-- Frames before the initialization frame. -/
theorem step_skip [Group G] {set : Settings} {s : State G} {ns : List Int} (hi : Inv set s ns)
    {x : FrameIn G} (ha : Acceptable ns x.num) (hm : x.num < intMax)
    (hl : ns.length < (policyOf set).skip + 1) :
    ∃ s', addFrame set s x = .ok (s', none) ∧ Inv set s' (ns ++ [x.num]) ∧ s'.log = [] := by
  obtain ⟨T, hT1, hT2, e⟩ := addFrame_eq (set := set) hi.frames ha hm
  have hni : s.isInitialized = false := by rw [hi.initd]; simp; omega
  obtain ⟨hlog, hini⟩ := hi.ini (by omega)
  rw [e, hni]
  have hbk : FrameSpec.book (policyOf set) ns = [] := book_lt (by omega)
  have hbk' : FrameSpec.book (policyOf set) (ns ++ [x.num]) = [] := book_lt (by simp; omega)
  have hkf : s.keyFrames = [] := by
    have := hi.window; rw [hbk] at this; simpa using this
  have key : ∃ ini', s.initializer.addFrame set x.num = (ini', false) ∧ ini' = iniSpec (ns ++ [x.num]) := by
    rw [hini]
    cases ns with
    | nil => exact ⟨_, rfl, rfl⟩
    | cons f rest =>
      refine ⟨_, ?_, rfl⟩
      have : (rest.length : Int) < set.firstFramesSkip := by
        simp [policyOf] at hl; omega
      simp [iniSpec, Initializer.addFrame, this]
  obtain ⟨ini', e1, e2⟩ := key
  refine ⟨{ s with tableSize := T, frameNumbers := ns ++ [x.num], initializer := ini', isInitialized := false }, ?_, ?_, hlog⟩
  · simp [addFrameInit, e1]
  · refine ⟨?_, ?_, ?_, ?_, ?_, ?_, ?_, ?_, ?_, ?_, ?_, ?_⟩
    · rfl
    · exact sorted_snoc hi.sorted ha
    · exact range_snoc hi.range ha hT1 hT2
    · simp; omega
    · intro _; exact ⟨hlog, e2⟩
    · simp [hlog, hkf, hbk', marginalizedOf]
    · simp [hkf, hbk']
    · show newFramesOf s.log = _
      rw [hlog, List.drop_eq_nil_of_le (by simp; omega)]; rfl
    · show announcedOf s.log = _
      rw [hlog, hbk']; simp [announcedOf, Book.keyFrames]
    · show initializedOf s.log = _
      rw [hlog, if_neg (by simp; omega)]; rfl
    · show ∀ pre kfs post, s.log = _ → _
      rw [hlog]; intro pre kfs post h; simp at h
    · show PosesOk s.keyFrames _
      rw [hkf]; simp [PosesOk]

/-- The initialization frame. -/
theorem step_init [Group G] {set : Settings} (hv : Valid set) {s : State G} {ns : List Int}
    (hi : Inv set s ns) {x : FrameIn G} (ha : Acceptable ns x.num) (hm : x.num < intMax)
    (hl : ns.length = (policyOf set).skip + 1) :
    ∃ s' k0 k1 base, addFrame set s x = .ok (s', some x.num) ∧ Inv set s' (ns ++ [x.num]) ∧
      s'.log = [.initialized [k0, k1], .newKeyFrame base] ∧
      s'.keyFrames = [k0, k1] := by
  obtain ⟨T, hT1, hT2, e⟩ := addFrame_eq (set := set) hi.frames ha hm
  have hni : s.isInitialized = false := by rw [hi.initd]; simp; omega
  obtain ⟨hlog, hini⟩ := hi.ini (by omega)
  rw [e, hni]
  have hbk : FrameSpec.book (policyOf set) ns = [] := book_lt (by omega)
  have hkf : s.keyFrames = [] := by
    have := hi.window; rw [hbk] at this; simpa using this
  cases ns with
  | nil => simp at hl
  | cons f rest =>
    have hrest : rest.length = (policyOf set).skip := by simpa using hl
    have hskip : ¬ ((rest.length : Int) < set.firstFramesSkip) := by
      simp [policyOf] at hrest; omega
    have hfn : f < x.num := ha.2 f (by simp)
    have hfr : 0 < f ∧ f < s.tableSize := hi.range f (by simp)
    have hn0 := ha.1
    have hbk' : FrameSpec.book (policyOf set) (f :: rest ++ [x.num]) = [(f, []), (x.num, [])] :=
      book_init (by omega)
    let k0 : KeyFrame G := { num := f, thisToWorld := 1, trackedFrames := [] }
    let k1 : KeyFrame G := { num := x.num, thisToWorld := x.stereo⁻¹, trackedFrames := [] }
    let base := if set.trackFromLastKf then k1 else k0
    let ini : Initializer := { hasFirstFrame := true, framesSkipped := rest.length, globalFrameNum0 := f }
    let tbl : Int → Option G := fun i =>
      if i = x.num then some (x.stereo⁻¹)⁻¹ else if i = f then some 1⁻¹ else s.worldToFrame i
    refine ⟨{ initializer := ini, isInitialized := true, keyFrames := [k0, k1],
              frameNumbers := f :: rest ++ [x.num], tableSize := T, worldToFrame := tbl,
              log := [.initialized [k0, k1], .newKeyFrame base] }, k0, k1, base, ?_, ?_, rfl, rfl⟩
    · have ea : s.initializer.addFrame set x.num = (ini, true) := by
        rw [hini]; simp [iniSpec, Initializer.addFrame, hskip, ini]
      have ec : ini.createKeyFrames x.num x.stereo = [k0, k1] := rfl
      simp only [Bool.not_false, if_true, addFrameInit, ea, Bool.not_true,
        Bool.false_eq_true, if_false, ec]
      have w := foldlM_writePose_ok [(f, (1 : G)⁻¹), (x.num, (x.stereo⁻¹)⁻¹)]
        { s with tableSize := T, frameNumbers := f :: rest ++ [x.num], initializer := ini, isInitialized := true }
        (by intro w hw; simp at hw; rcases hw with rfl | rfl <;> simp <;> omega)
      have w' : List.foldlM (fun (s : State G) (k : KeyFrame G) => writePose s k.num k.thisToWorld⁻¹)
          { s with tableSize := T, frameNumbers := f :: rest ++ [x.num], initializer := ini, isInitialized := true }
          [k0, k1] = _ := w
      rw [w']
      have hk : ([k0, k1].foldl (fun m f => mapInsert f m) s.keyFrames) = [k0, k1] := by
        rw [hkf]
        simp only [List.foldl_cons, List.foldl_nil, mapInsert]
        rw [if_neg (show ¬ x.num < f by omega), if_neg (show ¬ x.num = f by omega)]
      have hb : baseKeyFrame set [k0, k1] = .ok base := by
        simp only [baseKeyFrame, baseIndex, base]
        cases set.trackFromLastKf <;> simp
      have hlast : lastKeyFrame [k0, k1] = .ok k1 := rfl
      simp only [hk, hb, hlast, hlog]
      simp only [applyWrites, tbl, k1, List.nil_append]
    · refine ⟨?_, ?_, ?_, ?_, ?_, ?_, ?_, ?_, ?_, ?_, ?_, ?_⟩
      · rfl
      · exact sorted_snoc hi.sorted ha
      · exact range_snoc hi.range ha hT1 hT2
      · simp; omega
      · intro h; simp at h; omega
      · rw [hbk']; simp [marginalizedOf, entry, k0, k1]
      · rw [hbk']; have := hv.window; simp; omega
      · rw [List.drop_eq_nil_of_le (by simp; omega)]; rfl
      · rw [hbk']
        simp only [announcedOf, Book.keyFrames, base]
        cases set.trackFromLastKf <;> rfl
      · rw [if_pos (by simp; omega)]
        simp only [initializedOf]
        have : (f :: rest ++ [x.num]).drop ((policyOf set).skip + 1) = [x.num] := by
          rw [← hrest]; simp
        rw [this]
        rfl
      · intro pre kfs post h
        have hmem : Event.marginalized kfs ∈ [Event.initialized [k0, k1], Event.newKeyFrame base] := by
          show _ ∈ _
          have : [Event.initialized [k0, k1], Event.newKeyFrame base] = pre ++ .marginalized kfs :: post := h
          rw [this]; simp
        simp at hmem
      · have hne : f ≠ x.num := by omega
        intro kf hkf
        simp only [List.mem_cons, List.not_mem_nil, or_false] at hkf
        rcases hkf with rfl | rfl
        · refine ⟨?_, by simp [k0]⟩
          simp [tbl, k0, hne]
        · refine ⟨?_, by simp [k1]⟩
          simp [tbl, k1]

/-! ## Tracking -/

theorem predictionFrames_ok {l : List Int} (h : 3 ≤ l.length) :
    ∃ r, predictionFrames l = .ok r := by
  unfold predictionFrames
  have : 3 ≤ l.reverse.length := by simpa using h
  match e : l.reverse, this with
  | a :: b :: c :: rest, _ => exact ⟨_, rfl⟩

theorem map_entry_modify (W : List (KeyFrame G)) (i : Nat) (f : Tracked G) :
    (W.modify i (fun kf => { kf with trackedFrames := kf.trackedFrames ++ [f] })).map entry
      = (W.map entry).modify i (fun e => (e.1, e.2 ++ [f.num])) := by
  apply List.ext_getElem
  · simp
  · intro j h1 h2
    simp only [List.getElem_map, List.getElem_modify]
    split <;> simp [entry]

theorem modify_append_right {α : Type} (a b : List α) (i : Nat) (f : α → α) :
    (a ++ b).modify (a.length + i) f = a ++ b.modify i f := by
  induction a with
  | nil => simp
  | cons x a ih =>
    have : (x :: a).length + i = (a.length + i) + 1 := by simp; omega
    rw [this, List.cons_append, List.modify_succ_cons, ih]
    rfl

theorem PosesOk.congr [Group G] {W : List (KeyFrame G)} {t t' : Int → Option G} (h : PosesOk W t)
    (e : ∀ n ∈ framesOf W, t' n = t n) : PosesOk W t' := by
  intro kf hkf
  have hm : ∀ n, n ∈ kf.num :: kf.trackedFrames.map (·.num) → n ∈ framesOf W := by
    intro n hn
    simp only [framesOf, List.mem_flatMap]
    exact ⟨kf, hkf, hn⟩
  refine ⟨?_, fun f hf => ?_⟩
  · rw [e _ (hm _ (by simp))]; exact (h kf hkf).1
  · rw [e _ (hm _ (by simp; right; exact ⟨f, hf, rfl⟩))]; exact (h kf hkf).2 f hf

theorem PosesOk.sub [Group G] {W W' : List (KeyFrame G)} {t : Int → Option G} (h : PosesOk W t)
    (e : ∀ kf ∈ W', kf ∈ W) : PosesOk W' t := fun kf hkf => h kf (e kf hkf)

theorem baseIndex_ok (set : Settings) {n : Nat} (h : 2 ≤ n) :
    baseIndex set n = some (n - if set.trackFromLastKf then 1 else 2) := by
  unfold baseIndex
  cases set.trackFromLastKf <;> simp <;> omega

theorem baseKeyFrame_ok (set : Settings) {W : List (KeyFrame G)} (h : 2 ≤ W.length) :
    ∃ base, baseKeyFrame set W = .ok base ∧
      W[W.length - if set.trackFromLastKf then 1 else 2]? = some base := by
  have hlt : (W.length - if set.trackFromLastKf then 1 else 2) < W.length := by
    split <;> omega
  refine ⟨_, ?_, List.getElem?_eq_getElem hlt⟩
  unfold baseKeyFrame
  simp only [baseIndex_ok set h, List.getElem?_eq_getElem hlt]

theorem marginalize_eq {set : Settings} (hm : 0 ≤ set.maxKeyFrames) (s : State G) :
    marginalizeFrames set s =
      { s with
        keyFrames := s.keyFrames.drop (s.keyFrames.length - set.maxKeyFrames.toNat)
        log := s.log ++ (if s.keyFrames.length - set.maxKeyFrames.toNat = 0 then []
          else [.marginalized (s.keyFrames.take (s.keyFrames.length - set.maxKeyFrames.toNat))]) } := by
  unfold marginalizeFrames
  split
  · rename_i h
    rw [if_neg (by omega)]
  · rename_i h
    have h0 : s.keyFrames.length - set.maxKeyFrames.toNat = 0 := by omega
    simp [h0]

theorem runBA_ok [Group G] {set : Settings} {s : State G} (ba : Int → G)
    (hlen : 2 ≤ s.keyFrames.length) (hn : (framesOf s.keyFrames).Nodup)
    (hr : ∀ n ∈ framesOf s.keyFrames, 0 ≤ n ∧ n < s.tableSize)
    (hp : PosesOk s.keyFrames s.worldToFrame) :
    ∃ W t, runBundleAdjustment set s ba = .ok { s with keyFrames := W, worldToFrame := t } ∧
      W.map entry = s.keyFrames.map entry ∧ PosesOk W t := by
  unfold runBundleAdjustment
  split
  · exact ⟨s.keyFrames, s.worldToFrame, rfl, rfl, hp⟩
  · rw [if_neg (by omega)]
    have he : (s.keyFrames.map (fun kf => { kf with thisToWorld := ba kf.num })).map entry
        = s.keyFrames.map entry := by simp [entry]
    have hfr : framesOf (s.keyFrames.map (fun kf => { kf with thisToWorld := ba kf.num }))
        = framesOf s.keyFrames := by rw [framesOf_eq, framesOf_eq, he]
    simp only
    rw [refresh_eq, foldlM_writePose_ok]
    · refine ⟨_, _, rfl, he, posesOk_refresh _ _ ?_⟩
      rw [hfr]; exact hn
    · intro w hw
      apply hr
      rw [← hfr, ← refreshWrites_fst]
      exact List.mem_map_of_mem hw

theorem order_append {ns : List Int} {log evs : List (Event G)}
    (h1 : ∀ pre kfs post, log = pre ++ .marginalized kfs :: post →
      kfs ≠ [] ∧ ∀ kf ∈ kfs, ns.head? = some kf.num ∨ kf.num ∈ announcedOf pre)
    (h2 : ∀ pre kfs post, evs = pre ++ .marginalized kfs :: post →
      kfs ≠ [] ∧ ∀ kf ∈ kfs, ns.head? = some kf.num ∨ kf.num ∈ announcedOf (log ++ pre)) :
    ∀ pre kfs post, log ++ evs = pre ++ .marginalized kfs :: post →
      kfs ≠ [] ∧ ∀ kf ∈ kfs, ns.head? = some kf.num ∨ kf.num ∈ announcedOf pre := by
  intro pre kfs post e
  rcases List.append_eq_append_iff.1 e with ⟨a, ea, eb⟩ | ⟨a, ea, eb⟩
  · subst ea
    exact h2 a kfs post eb
  · cases a with
    | nil =>
      simp only [List.append_nil, List.nil_append] at ea eb
      have := h2 [] kfs post eb.symm
      simpa [ea] using this
    | cons y a =>
      simp only [List.cons_append, List.cons.injEq] at eb
      rw [← eb.1] at ea
      exact h1 pre kfs a ea

/-- Facts about the window of an initialized system. -/
theorem window_facts [Group G] {set : Settings} (hv : Valid set) {s : State G} {ns : List Int}
    (hi : Inv set s ns) (hl : (policyOf set).skip + 2 ≤ ns.length) :
    2 ≤ s.keyFrames.length ∧
    s.keyFrames.map entry = (FrameSpec.book (policyOf set) ns).drop (marginalizedOf s.log).length ∧
    (FrameSpec.book (policyOf set) ns).length = (marginalizedOf s.log).length + s.keyFrames.length ∧
    (∀ m ∈ framesOf s.keyFrames, m ∈ ns) ∧ (framesOf s.keyFrames).Nodup := by
  have hb := book_length (p := policyOf set) hl
  have hw := hi.window
  have hv1 := hv.window
  have hbk := hi.book
  have e2 : s.keyFrames.map entry
      = (FrameSpec.book (policyOf set) ns).drop (marginalizedOf s.log).length := by
    rw [← hbk, List.map_append]; simp
  have hsub : (framesOf s.keyFrames).Sublist (FrameSpec.book (policyOf set) ns).frames := by
    rw [← hbk, List.map_append, Book.frames, List.flatMap_append, framesOf_eq]
    exact List.sublist_append_right _ _
  have hsp : (FrameSpec.book (policyOf set) ns).frames.Subperm ns := frames_subperm
  refine ⟨by omega, e2, ?_, ?_, ?_⟩
  · rw [← hbk]; simp
  · intro m hm; exact hsp.subset (hsub.subset hm)
  · have hnd : ns.Nodup := hi.sorted.imp (fun h => by omega)
    obtain ⟨l, hp, hs⟩ := hsp
    exact hsub.nodup (hp.nodup_iff.1 (hs.nodup hnd))

theorem doNeedKf_ok {set : Settings} (hs : set.shiftBetweenKeyFrames ≠ 0) {W : List (KeyFrame G)}
    {last : KeyFrame G} (hl : W.getLast? = some last) {n : Int} (hn : last.num < n) :
    doNeedKf set W n = .ok (decide (set.shiftBetweenKeyFrames ∣ n - last.num)) := by
  unfold doNeedKf lastKeyFrame
  simp only [hl]
  rw [if_pos (by omega), if_neg hs]
  simp only [Int.dvd_iff_tmod_eq_zero]

theorem step_track [Group G] {set : Settings} (hv : Valid set) {s : State G} {ns : List Int}
    (hi : Inv set s ns) {x : FrameIn G} (ha : Acceptable ns x.num) (hm : x.num < intMax)
    (hl : (policyOf set).skip + 2 ≤ ns.length) :
    ∃ s' evs, addFrame set s x = .ok (s', some x.num) ∧ Inv set s' (ns ++ [x.num]) ∧
      s'.log = s.log ++ .newFrame x.num :: evs ∧
      (evs = [] ∨ ∃ marg base, evs = (if marg = [] then [] else [.marginalized marg])
        ++ [.newKeyFrame base]) := by
  obtain ⟨T, hT1, hT2, e⟩ := addFrame_eq (set := set) hi.frames ha hm
  have hni : s.isInitialized = true := by rw [hi.initd]; simpa using hl
  obtain ⟨hW2, hWd, hBl, hWns, hWnd⟩ := window_facts hv hi hl
  have hn0 := ha.1
  rw [e, hni]
  simp only [Bool.not_true, Bool.false_eq_true, if_false]
  obtain ⟨base, hb1, hb2⟩ := baseKeyFrame_ok set hW2
  obtain ⟨pf, hpf⟩ := predictionFrames_ok (l := ns ++ [x.num]) (by simp; omega)
  -- the newest keyframe
  have hWne : s.keyFrames ≠ [] := by intro h; rw [h] at hW2; simp at hW2
  obtain ⟨last, hlast⟩ : ∃ last, s.keyFrames.getLast? = some last :=
    ⟨_, List.getLast?_eq_some_getLast hWne⟩
  have hBlast : (FrameSpec.book (policyOf set) ns).getLast? = some (entry last) := by
    rw [← hi.book, List.map_append, List.getLast?_append, List.getLast?_map, hlast]; rfl
  have hlastmem : last ∈ s.keyFrames := List.mem_of_getLast? hlast
  have hnumns : ∀ kf ∈ s.keyFrames, kf.num ∈ ns := fun kf hkf => hWns _ (by
    simp only [framesOf, List.mem_flatMap]; exact ⟨kf, hkf, by simp⟩)
  have hlastn : last.num < x.num := ha.2 _ (hnumns _ hlastmem)
  have hneed := doNeedKf_ok hv.shift hlast hlastn
  have hbt : FrameSpec.book (policyOf set) (ns ++ [x.num])
      = if set.shiftBetweenKeyFrames ∣ x.num - last.num then
          (if set.continueChoosingKeyFrames then
            FrameSpec.book (policyOf set) ns ++ [(x.num, [])] else FrameSpec.book (policyOf set) ns)
        else attach set.trackFromLastKf (FrameSpec.book (policyOf set) ns) x.num := by
    rw [book_snoc hl]
    unfold track
    rw [hBlast]
    rfl
  have hxW : x.num ∉ framesOf s.keyFrames := fun h => by
    have := ha.2 _ (hWns _ h); omega
  have hposes' : ∀ g : G, PosesOk s.keyFrames
      (fun i => if i = x.num then some g else s.worldToFrame i) := fun g => by
    refine hi.poses.congr (fun m hm => ?_)
    have : m ≠ x.num := fun h => hxW (h ▸ hm)
    simp [this]
  have hnewFrames : newFramesOf s.log ++ [x.num] = (ns ++ [x.num]).drop ((policyOf set).skip + 2) := by
    rw [hi.newFrames, List.drop_append_of_le_length hl]
  have hinits : initializedOf s.log
      = if (policyOf set).skip + 2 ≤ (ns ++ [x.num]).length then
        [(ns ++ [x.num]).take 1 ++ ((ns ++ [x.num]).drop ((policyOf set).skip + 1)).take 1] else [] := by
    rw [hi.inits, if_pos hl, if_pos (by simp; omega), List.take_append_of_le_length (by omega),
      List.drop_append_of_le_length (by omega), List.take_append_of_le_length (by simp; omega)]
  have hhead : (ns ++ [x.num]).head? = ns.head? := by
    cases ns with
    | nil => simp at hl
    | cons a l => rfl
  have horder : ∀ pre kfs post, s.log = pre ++ .marginalized kfs :: post →
      kfs ≠ [] ∧ ∀ kf ∈ kfs, (ns ++ [x.num]).head? = some kf.num ∨ kf.num ∈ announcedOf pre := by
    rw [hhead]; exact hi.order
  -- unfold the branch
  simp only [addFrameTrack, hb1, hpf]
  rw [writePose_ok ⟨by omega, hT2⟩]
  simp only [hneed]
  by_cases hdvd : set.shiftBetweenKeyFrames ∣ x.num - last.num
  · simp only [hdvd, decide_true, Bool.not_true, Bool.false_eq_true, if_false]
    rw [if_pos hdvd] at hbt
    cases hcont : set.continueChoosingKeyFrames with
    | false =>
      simp only [Bool.false_eq_true, if_false]
      rw [hcont] at hbt
      simp only [Bool.false_eq_true, if_false] at hbt
      refine ⟨_, [], rfl, ?_, rfl, Or.inl rfl⟩
      refine ⟨rfl, sorted_snoc hi.sorted ha, range_snoc hi.range ha hT1 hT2, ?_, ?_, ?_, ?_, ?_, ?_, ?_, ?_, ?_⟩
      · show true = _
        simp; omega
      · intro h; simp at h; omega
      · rw [hbt]; simpa [marginalizedOf] using hi.book
      · rw [hbt]; exact hi.window
      · show newFramesOf (s.log ++ [.newFrame x.num]) = _
        rw [newFramesOf_append]; exact hnewFrames
      · show announcedOf (s.log ++ [.newFrame x.num]) = _
        rw [hbt, ← hi.announced]; simp [announcedOf]
      · show initializedOf (s.log ++ [.newFrame x.num]) = _
        rw [← hinits]; simp [initializedOf]
      · refine order_append horder ?_
        intro pre kfs post h
        have : Event.marginalized kfs ∈ [Event.newFrame (G := G) x.num] := by rw [h]; simp
        simp at this
      · exact hposes' _
    | true =>
      simp only [if_true]
      rw [hcont] at hbt
      simp only [if_true] at hbt
      let kf : KeyFrame G :=
        { num := x.num, thisToWorld := base.thisToWorld * x.track⁻¹, trackedFrames := [] }
      have hins : mapInsert kf s.keyFrames = s.keyFrames ++ [kf] :=
        mapInsert_last _ _ (fun k hk => ha.2 _ (hnumns k hk))
      have hmax := hv.window
      let W1 := s.keyFrames ++ [kf]
      have hW1l : W1.length = s.keyFrames.length + 1 := by simp [W1]
      let cnt := W1.length - set.maxKeyFrames.toNat
      have hcnt : cnt ≤ s.keyFrames.length - 1 := by simp only [cnt, hW1l]; omega
      have hwin := hi.window
      have hW2l : (W1.drop cnt).length = min set.maxKeyFrames.toNat (s.keyFrames.length + 1) := by
        rw [List.length_drop, hW1l]; simp only [cnt, hW1l]; omega
      obtain ⟨base', hb1', hb2'⟩ := baseKeyFrame_ok set (W := W1.drop cnt) (by rw [hW2l]; omega)
      let tbl : Int → Option G :=
        fun i => if i = x.num then some (x.track * base.thisToWorld⁻¹) else s.worldToFrame i
      let margEv : List (Event G) := if cnt = 0 then [] else [.marginalized (W1.take cnt)]
      let s1 : State G :=
        { s with
          isInitialized := true
          tableSize := T, frameNumbers := ns ++ [x.num], worldToFrame := tbl
          keyFrames := W1.drop cnt
          log := s.log ++ [.newFrame x.num] ++ margEv ++ [.newKeyFrame base'] }
      have hfr1 : framesOf W1 = framesOf s.keyFrames ++ [x.num] := by
        simp [framesOf, W1, kf]
      have hfrd : (framesOf (W1.drop cnt)).Sublist (framesOf s.keyFrames ++ [x.num]) := by
        rw [← hfr1]
        unfold framesOf
        rw [show W1.flatMap _ = (W1.take cnt).flatMap _ ++ (W1.drop cnt).flatMap _ by
          rw [← List.flatMap_append, List.take_append_drop]]
        exact List.sublist_append_right _ _
      have hnd1 : (framesOf s.keyFrames ++ [x.num]).Nodup := by
        rw [List.nodup_append]
        refine ⟨hWnd, by simp, ?_⟩
        intro a h b hb
        simp at hb; subst hb
        intro h2; exact hxW (h2 ▸ h)
      have hrange1 : ∀ m ∈ framesOf (W1.drop cnt), 0 ≤ m ∧ m < T := by
        intro m hm
        have := hfrd.subset hm
        rcases List.mem_append.1 this with h | h
        · have := hi.range _ (hWns _ h); omega
        · simp at h; omega
      have hposes1 : PosesOk (W1.drop cnt) tbl := by
        refine PosesOk.sub (W := W1) ?_ (fun k hk => List.mem_of_mem_drop hk)
        intro k hk
        rcases List.mem_append.1 hk with h | h
        · exact hposes' _ k h
        · simp only [List.mem_singleton] at h
          subst h
          refine ⟨?_, by simp [kf]⟩
          simp [tbl, kf]
      obtain ⟨W', t', hba, hbe, hbp⟩ := runBA_ok (set := set) (s := s1) x.ba
        (by show 2 ≤ (W1.drop cnt).length; rw [hW2l]; omega) (hfrd.nodup hnd1) hrange1 hposes1
      have hadd : addKeyFrame set
          { s with isInitialized := true, tableSize := T, frameNumbers := ns ++ [x.num], worldToFrame := tbl,
                   log := s.log ++ [.newFrame x.num] } x base
          = .ok { s1 with keyFrames := W', worldToFrame := t' } := by
        unfold addKeyFrame
        simp only [hins, kf]
        rw [marginalize_eq (by omega)]
        simp only
        have e1 : baseKeyFrame set ((s.keyFrames ++ [kf]).drop
            ((s.keyFrames ++ [kf]).length - set.maxKeyFrames.toNat)) = .ok base' := hb1'
        simp only [kf] at e1
        rw [e1]
        exact hba
      simp only [tbl] at hadd
      rw [hadd]
      have hmarg : marginalizedOf margEv = W1.take cnt := by
        simp only [margEv]
        split
        · rename_i h; simp [marginalizedOf, h]
        · simp [marginalizedOf]
      have hann0 : announcedOf margEv = [] := by
        simp only [margEv]; split <;> simp [announcedOf]
      have hnf0 : newFramesOf margEv = [] := by
        simp only [margEv]; split <;> simp [newFramesOf]
      have hin0 : initializedOf margEv = [] := by
        simp only [margEv]; split <;> simp [initializedOf]
      -- the number of the announced keyframe
      have hkB : s.keyFrames.map (·.num) =
          (FrameSpec.book (policyOf set) ns).keyFrames.drop (marginalizedOf s.log).length := by
        have := congrArg (List.map Prod.fst) hWd
        rw [List.map_drop] at this
        simpa [entry, Book.keyFrames, Function.comp_def] using this
      have hbase'num : base'.num = if set.trackFromLastKf then x.num else last.num := by
        rw [List.getElem?_drop] at hb2'
        cases hfl : set.trackFromLastKf with
        | true =>
          simp only [hfl, if_true, List.length_drop] at hb2'
          have hidx : cnt + (W1.length - cnt - 1) = s.keyFrames.length := by omega
          rw [hidx] at hb2'
          simp [W1] at hb2'
          rw [← hb2']; simp [kf]
        | false =>
          simp only [hfl, Bool.false_eq_true, if_false, List.length_drop] at hb2'
          have hidx : cnt + (W1.length - cnt - 2) = s.keyFrames.length - 1 := by omega
          rw [hidx] at hb2'
          simp only [W1] at hb2'
          rw [List.getElem?_append_left (by omega), ← List.getLast?_eq_getElem?, hlast] at hb2'
          simp at hb2'
          simp [hb2']
      have hkf' : (FrameSpec.book (policyOf set) ns ++ [(x.num, [])]).keyFrames
          = (FrameSpec.book (policyOf set) ns).keyFrames ++ [x.num] := by simp [Book.keyFrames]
      have hBk : (FrameSpec.book (policyOf set) ns).keyFrames.length = (FrameSpec.book (policyOf set) ns).length := by
        simp [Book.keyFrames]
      have hBk2 := book_length (p := policyOf set) hl
      have hsnoc : (FrameSpec.book (policyOf set) ns).keyFrames.dropLast ++ [last.num]
          = (FrameSpec.book (policyOf set) ns).keyFrames := by
        have h1 : (FrameSpec.book (policyOf set) ns).keyFrames.getLast? = some last.num := by
          rw [getLast?_keyFrames, hBlast]; rfl
        exact List.dropLast_append_getLast? _ h1
      refine ⟨_, margEv ++ [.newKeyFrame base'], rfl, ?_, by simp [s1], Or.inr ⟨W1.take cnt, base', ?_⟩⟩
      · refine ⟨rfl, sorted_snoc hi.sorted ha, range_snoc hi.range ha hT1 hT2, ?_, ?_, ?_, ?_, ?_, ?_, ?_, ?_, hbp⟩
        · show true = _
          simp; omega
        · intro h; simp at h; omega
        · rw [hbt]
          show (marginalizedOf s1.log ++ W').map entry = _
          have : marginalizedOf s1.log = marginalizedOf s.log ++ W1.take cnt := by
            simp only [s1, marginalizedOf_append, hmarg]; simp [marginalizedOf]
          rw [this, List.map_append, hbe, ← hi.book]
          show (marginalizedOf s.log ++ W1.take cnt).map entry ++ (W1.drop cnt).map entry = _
          rw [← List.map_append, List.append_assoc, List.take_append_drop]
          simp [W1, entry, kf]
        · rw [hbt]
          have h1 : W'.length = (W1.drop cnt).length := by
            have := congrArg List.length hbe; rw [List.length_map, List.length_map] at this; exact this
          show W'.length = _
          rw [h1, hW2l]; simp; omega
        · show newFramesOf s1.log = _
          rw [← hnewFrames]; simp only [s1, newFramesOf_append, hnf0]; simp [newFramesOf]
        · show announcedOf s1.log = _
          have : announcedOf s1.log = announcedOf s.log ++ [base'.num] := by
            simp only [s1, announcedOf_append, hann0]; simp [announcedOf]
          rw [this, hi.announced, hbt, hkf', hbase'num]
          cases set.trackFromLastKf with
          | true =>
            simp only [if_true]
            rw [List.drop_append_of_le_length (by rw [hBk]; omega)]
          | false =>
            simp only [Bool.false_eq_true, if_false, List.dropLast_concat]
            exact hsnoc
        · show initializedOf s1.log = _
          rw [← hinits]; simp only [s1, initializedOf_append, hin0]; simp [initializedOf]
        · have hs1log : s1.log = s.log ++ ([.newFrame x.num] ++ margEv ++ [.newKeyFrame base']) := by
            simp [s1]
          show ∀ pre kfs post, s1.log = _ → _
          rw [hs1log]
          refine order_append horder ?_
          intro pre kfs post h
          have hh : cnt ≠ 0 ∧ kfs = W1.take cnt ∧ pre = [.newFrame x.num] := by
            simp only [margEv] at h
            split at h
            · have : Event.marginalized kfs ∈ [Event.newFrame x.num, Event.newKeyFrame base'] := by
                have h' : [Event.newFrame x.num, Event.newKeyFrame base'] = pre ++ .marginalized kfs :: post := by
                  simpa using h
                rw [h']; simp
              simp at this
            · rename_i hc
              refine ⟨hc, ?_⟩
              cases pre with
              | nil => simp at h
              | cons a pre =>
                simp only [List.cons_append, List.nil_append, List.cons.injEq] at h
                cases pre with
                | nil =>
                  simp only [List.nil_append, List.cons.injEq, Event.marginalized.injEq] at h
                  exact ⟨h.2.1.symm, by rw [← h.1]⟩
                | cons b pre =>
                  simp only [List.cons_append, List.cons.injEq] at h
                  have : Event.marginalized kfs ∈ [Event.newKeyFrame base'] := by rw [h.2.2]; simp
                  simp at this
          obtain ⟨hc, rfl, rfl⟩ := hh
          refine ⟨?_, ?_⟩
          · intro h0
            have := congrArg List.length h0
            simp only [List.length_take, List.length_nil] at this
            omega
          · intro k hk
            rw [hhead, announcedOf_append]
            -- k is an old keyframe, not the newest one
            have hk1 : k ∈ s.keyFrames.take cnt := by
              have : W1.take cnt = s.keyFrames.take cnt := by
                simp only [W1]; rw [List.take_append_of_le_length (by omega)]
              rwa [this] at hk
            have hk2 : k.num ∈ (FrameSpec.book (policyOf set) ns).keyFrames.dropLast := by
              have h3 : k ∈ s.keyFrames.dropLast := by
                rw [List.dropLast_eq_take]
                have : s.keyFrames.take cnt = (s.keyFrames.take (s.keyFrames.length - 1)).take cnt := by
                  rw [List.take_take]; congr 1; omega
                rw [this] at hk1
                exact List.mem_of_mem_take hk1
              have h4 : k.num ∈ (s.keyFrames.map (·.num)).dropLast := by
                rw [← List.map_dropLast]
                exact List.mem_map_of_mem h3
              rw [hkB, List.dropLast_eq_take, List.length_drop] at h4
              rw [List.dropLast_eq_take]
              rw [List.take_drop] at h4
              have h5 := List.mem_of_mem_drop h4
              have : (marginalizedOf s.log).length +
                  ((FrameSpec.book (policyOf set) ns).keyFrames.length - (marginalizedOf s.log).length - 1)
                  = (FrameSpec.book (policyOf set) ns).keyFrames.length - 1 := by omega
              rw [this] at h5
              exact h5
            cases hfl : set.trackFromLastKf with
            | false =>
              right
              rw [hi.announced, hfl]
              simp only [Bool.false_eq_true, if_false, List.mem_append]
              left; exact hk2
            | true =>
              have h6 : k.num ∈ (FrameSpec.book (policyOf set) ns).keyFrames := List.dropLast_subset _ hk2
              have h7 : (FrameSpec.book (policyOf set) ns).keyFrames.head? = ns.head? := book_head hl
              rw [hi.announced, hfl]
              simp only [if_true]
              cases hkk : (FrameSpec.book (policyOf set) ns).keyFrames with
              | nil => rw [hkk] at h6; simp at h6
              | cons a l =>
                rw [hkk] at h6 h7
                rcases List.mem_cons.1 h6 with h8 | h8
                · left; rw [← h7, h8]; rfl
                · right; simp [h8]
      · simp only [margEv]
        congr 1
        by_cases hc : cnt = 0
        · simp [hc]
        · have : W1.take cnt ≠ [] := by
            intro h0
            have := congrArg List.length h0
            simp only [List.length_take, List.length_nil] at this
            omega
          rw [if_neg hc, if_neg this]
  · simp only [hdvd, decide_false, Bool.not_false, if_true]
    rw [if_neg hdvd] at hbt
    have hpush : pushTracked set s.keyFrames { num := x.num, baseToThis := x.track }
        = .ok (s.keyFrames.modify (s.keyFrames.length - if set.trackFromLastKf then 1 else 2)
          (fun kf => { kf with trackedFrames := kf.trackedFrames ++ [{ num := x.num, baseToThis := x.track }] })) := by
      unfold pushTracked
      simp only [baseIndex_ok set hW2]
    rw [hpush]
    refine ⟨_, [], rfl, ?_, rfl, Or.inl rfl⟩
    refine ⟨rfl, sorted_snoc hi.sorted ha, range_snoc hi.range ha hT1 hT2, ?_, ?_, ?_, ?_, ?_, ?_, ?_, ?_, ?_⟩
    · show true = _
      simp; omega
    · intro h; simp at h; omega
    · rw [hbt]
      have : marginalizedOf (s.log ++ [.newFrame x.num]) = marginalizedOf s.log := by
        simp [marginalizedOf]
      show (marginalizedOf (s.log ++ [.newFrame x.num]) ++ _).map entry = _
      rw [this, List.map_append, map_entry_modify]
      unfold attach
      have hidx : (FrameSpec.book (policyOf set) ns).length - (if set.trackFromLastKf then 1 else 2)
          = ((marginalizedOf s.log).map entry).length +
            (s.keyFrames.length - if set.trackFromLastKf then 1 else 2) := by
        rw [hBl, List.length_map]; split <;> omega
      rw [hidx, ← hi.book, List.map_append, modify_append_right]
    · rw [hbt, attach_length]
      simpa using hi.window
    · show newFramesOf (s.log ++ [.newFrame x.num]) = _
      rw [newFramesOf_append]; exact hnewFrames
    · show announcedOf (s.log ++ [.newFrame x.num]) = _
      rw [hbt, attach_keyFrames, ← hi.announced]; simp [announcedOf]
    · show initializedOf (s.log ++ [.newFrame x.num]) = _
      rw [← hinits]; simp [initializedOf]
    · refine order_append horder ?_
      intro pre kfs post h
      have : Event.marginalized kfs ∈ [Event.newFrame (G := G) x.num] := by rw [h]; simp
      simp at this
    · intro kf hkf
      obtain ⟨j, hj, rfl⟩ := List.getElem_of_mem hkf
      have hj' : j < s.keyFrames.length := by simpa using hj
      have hold := hposes' (x.track * base.thisToWorld⁻¹) s.keyFrames[j] (List.getElem_mem hj')
      rw [List.getElem_modify]
      by_cases hij : (s.keyFrames.length - if set.trackFromLastKf then 1 else 2) = j
      · rw [if_pos hij]
        have hbase : s.keyFrames[j] = base := by
          have := hb2
          rw [hij, List.getElem?_eq_getElem hj'] at this
          simpa using this
        refine ⟨hold.1, ?_⟩
        intro f hf
        rcases List.mem_append.1 hf with h | h
        · exact hold.2 f h
        · simp only [List.mem_singleton] at h
          subst h
          simp [hbase]
      · rw [if_neg hij]; exact hold

/-! ## Facts that need no assumption on the settings -/

/-- The parts of the state that only `addFrame`'s first lines change. -/
def sig (s : State G) : List Int × Int := (s.frameNumbers, s.tableSize)

theorem writePose_frames {s s' : State G} {n : Int} {g : G} (h : writePose s n g = .ok s') :
    sig s' = sig s := by
  unfold writePose at h
  split at h <;> cases h
  rfl

theorem writePose_err {s : State G} {n : Int} {g : G} {e : Err} (h : writePose s n g = .error e) :
    e = .ub := by
  unfold writePose at h
  split at h <;> cases h
  rfl

theorem foldlM_frames {α : Type} {f : State G → α → Except Err (State G)}
    (hok : ∀ s a s', f s a = .ok s' → sig s' = sig s)
    (herr : ∀ s a e, f s a = .error e → e = .ub) :
    ∀ (l : List α) (s : State G), (∀ s', l.foldlM f s = .ok s' → sig s' = sig s) ∧
      (∀ e, l.foldlM f s = .error e → e = .ub) := by
  intro l
  induction l with
  | nil => intro s; exact ⟨fun s' h => (by cases h; rfl), fun e h => by cases h⟩
  | cons a l ih =>
    intro s
    rw [List.foldlM_cons]
    cases hf : f s a with
    | error e => exact ⟨fun s' h => (by cases h), fun e' h => by cases h; exact herr _ _ _ hf⟩
    | ok s1 =>
      refine ⟨fun s' h => ((ih s1).1 s' h).trans (hok _ _ _ hf), fun e h => (ih s1).2 e h⟩

theorem refresh_frames [Group G] :
    (∀ (s : State G) (kf : KeyFrame G) s', refreshKeyFrame s kf = .ok s' →
      sig s' = sig s) ∧
    (∀ (s : State G) (kf : KeyFrame G) e, refreshKeyFrame s kf = .error e → e = .ub) := by
  have h := fun (kf : KeyFrame G) => foldlM_frames
    (f := fun (s : State G) (f : Tracked G) => writePose s f.num (f.baseToThis * kf.thisToWorld⁻¹))
    (fun _ _ _ h => writePose_frames h) (fun _ _ _ h => writePose_err h) kf.trackedFrames
  constructor
  · intro s kf s' h'
    unfold refreshKeyFrame at h'
    cases hw : writePose s kf.num kf.thisToWorld⁻¹ with
    | error e => rw [hw] at h'; cases h'
    | ok s1 =>
      rw [hw] at h'
      exact ((h kf s1).1 s' h').trans (writePose_frames hw)
  · intro s kf e h'
    unfold refreshKeyFrame at h'
    cases hw : writePose s kf.num kf.thisToWorld⁻¹ with
    | error e => rw [hw] at h'; cases h'; exact writePose_err hw
    | ok s1 =>
      rw [hw] at h'
      exact (h kf s1).2 e h'

theorem baseKeyFrame_err {set : Settings} {W : List (KeyFrame G)} {e : Err}
    (h : baseKeyFrame set W = .error e) : e = .ub := by
  unfold baseKeyFrame at h
  split at h
  · cases h; rfl
  · split at h <;> cases h
    rfl

theorem runBA_frames [Group G] {set : Settings} {s : State G} {ba : Int → G} :
    (∀ s', runBundleAdjustment set s ba = .ok s' → sig s' = sig s) ∧
    (∀ e, runBundleAdjustment set s ba = .error e → e = .ub) := by
  unfold runBundleAdjustment
  split
  · exact ⟨fun s' h => (by cases h; rfl), fun e h => by cases h⟩
  · split
    · exact ⟨fun s' h => (by cases h), fun e h => by cases h; rfl⟩
    · have := foldlM_frames (f := refreshKeyFrame (G := G)) refresh_frames.1 refresh_frames.2
        (s.keyFrames.map (fun kf => { kf with thisToWorld := ba kf.num }))
        { s with keyFrames := s.keyFrames.map (fun kf => { kf with thisToWorld := ba kf.num }) }
      exact this

theorem addKeyFrame_frames [Group G] {set : Settings} {s : State G} {x : FrameIn G}
    {base : KeyFrame G} :
    (∀ s', addKeyFrame set s x base = .ok s' → sig s' = sig s) ∧
    (∀ e, addKeyFrame set s x base = .error e → e = .ub) := by
  have hm : ∀ s : State G, sig (marginalizeFrames set s) = sig s := by
    intro s; unfold marginalizeFrames; split <;> rfl
  unfold addKeyFrame
  simp only
  split
  · rename_i e he
    exact ⟨fun s' h => (by cases h), fun e' h => by cases h; exact baseKeyFrame_err he⟩
  · rename_i base' _
    refine ⟨fun s' h => (runBA_frames.1 s' h).trans ?_, fun e h => runBA_frames.2 e h⟩
    exact hm _

theorem addFrameTrack_frames [Group G] {set : Settings} {s : State G} {x : FrameIn G} :
    (∀ r, addFrameTrack set s x = .ok r → sig r.1 = sig s) ∧
    (∀ e, addFrameTrack set s x = .error e → e = .ub) := by
  unfold addFrameTrack
  split
  · rename_i e he
    exact ⟨fun s' h => (by cases h), fun e' h => by cases h; exact baseKeyFrame_err he⟩
  simp only
  split
  · rename_i e he
    refine ⟨fun s' h => (by cases h), fun e' h => ?_⟩
    cases h
    unfold predictionFrames at he
    split at he <;> cases he
    rfl
  split
  · rename_i e he
    exact ⟨fun s' h => (by cases h), fun e' h => by cases h; exact writePose_err he⟩
  rename_i s1 hw
  have hw' := writePose_frames hw
  split
  · rename_i e he
    refine ⟨fun s' h => (by cases h), fun e' h => ?_⟩
    cases h
    unfold doNeedKf lastKeyFrame at he
    split at he
    · rename_i he2
      split at he2 <;> cases he2
      cases he; rfl
    · simp only at he
      split at he
      · split at he <;> cases he
        rfl
      · cases he
  split
  · split
    · rename_i e he
      refine ⟨fun s' h => (by cases h), fun e' h => ?_⟩
      cases h
      unfold pushTracked at he
      split at he <;> cases he
      rfl
    · exact ⟨fun s' h => (by cases h; exact hw'), fun e h => by cases h⟩
  · split
    · split
      · rename_i e he
        exact ⟨fun s' h => (by cases h), fun e' h => by cases h; exact addKeyFrame_frames.2 _ he⟩
      · rename_i s2 hs2
        exact ⟨fun s' h => (by cases h; exact (addKeyFrame_frames.1 _ hs2).trans hw'),
          fun e h => by cases h⟩
    · exact ⟨fun s' h => (by cases h; exact hw'), fun e h => by cases h⟩

theorem addFrameInit_frames [Group G] {set : Settings} {s : State G} {x : FrameIn G} :
    (∀ r, addFrameInit set s x = .ok r → sig r.1 = sig s) ∧
    (∀ e, addFrameInit set s x = .error e → e = .ub) := by
  unfold addFrameInit
  simp only
  split
  · exact ⟨fun s' h => (by cases h; rfl), fun e h => by cases h⟩
  split
  · rename_i e he
    refine ⟨fun s' h => (by cases h), fun e' h => ?_⟩
    cases h
    exact (foldlM_frames (f := fun (s : State G) (f : KeyFrame G) => writePose s f.num f.thisToWorld⁻¹)
      (fun _ _ _ h => writePose_frames h) (fun _ _ _ h => writePose_err h) _ _).2 e he
  · rename_i s1 h1
    have := (foldlM_frames (f := fun (s : State G) (f : KeyFrame G) => writePose s f.num f.thisToWorld⁻¹)
      (fun _ _ _ h => writePose_frames h) (fun _ _ _ h => writePose_err h) _ _).1 _ h1
    split
    · exact ⟨fun s' h => (by cases h; exact this), fun e h => by cases h⟩
    · exact ⟨fun s' h => (by cases h), fun e h => by cases h; rfl⟩

theorem increasing_iff {ns : List Int} (hs : ns.Pairwise (· < ·)) (n : Int) :
    increasing ns n = true ↔ ∀ m ∈ ns, m < n := by
  unfold increasing
  split
  · rename_i h
    rw [List.getLast?_eq_none_iff] at h
    subst h; simp
  · rename_i l h
    rw [decide_eq_true_iff]
    constructor
    · intro hl m hm
      rw [← List.dropLast_append_getLast? _ h] at hs hm
      rcases List.mem_append.1 hm with h1 | h1
      · have := (List.pairwise_append.1 hs).2.2 m h1 l (by simp)
        omega
      · simp at h1; omega
    · intro h'; exact h' l (List.mem_of_getLast? h)

/-- What holds of every reachable state, whatever the settings. -/
structure Inv0 (s : State G) (ns : List Int) : Prop where
  frames : s.frameNumbers = ns
  sorted : ns.Pairwise (· < ·)
  range : ∀ n ∈ ns, n < s.tableSize

theorem addFrame_inv0 [Group G] {set : Settings} {s : State G} {ns : List Int} (hi : Inv0 s ns)
    (x : FrameIn G) : (addFrame set s x = .error .abort ↔ ¬ Acceptable ns x.num) ∧
      ∀ r, addFrame set s x = .ok r → Inv0 r.1 (ns ++ [x.num]) := by
  obtain ⟨hf, hs, hr⟩ := hi
  subst hf
  unfold addFrame adjustWorldToFrameSizes
  by_cases h0 : 0 < x.num
  · rw [if_neg (by omega)]
    have hinc := increasing_iff hs x.num
    have hrest : ∀ T : Int, s.tableSize ≤ T → x.num < T → ∀ e : Except Err (State G × Option Int),
        e = (if increasing s.frameNumbers x.num then
        (if !s.isInitialized then
          addFrameInit set { s with tableSize := T, frameNumbers := s.frameNumbers ++ [x.num] } x
         else addFrameTrack set { s with tableSize := T, frameNumbers := s.frameNumbers ++ [x.num] } x)
        else .error .abort) → (e = .error .abort ↔ ¬ Acceptable s.frameNumbers x.num) ∧
          ∀ r, e = .ok r → Inv0 r.1 (s.frameNumbers ++ [x.num]) := by
      intro T hT1 hT2 e he
      cases hc : increasing s.frameNumbers x.num with
      | true =>
        rw [hc] at he
        simp only [if_true] at he
        have : Acceptable s.frameNumbers x.num := ⟨h0, hinc.1 hc⟩
        simp only [this, not_true_eq_false, iff_false]
        constructor
        · intro h
          rw [h] at he
          split at he
          · have := addFrameInit_frames.2 _ he.symm; cases this
          · have := addFrameTrack_frames.2 _ he.symm; cases this
        · intro r h
          rw [h] at he
          have hsig : sig r.1 = (s.frameNumbers ++ [x.num], T) := by
            split at he
            · exact addFrameInit_frames.1 _ he.symm
            · exact addFrameTrack_frames.1 _ he.symm
          unfold sig at hsig
          rw [Prod.mk.injEq] at hsig
          refine ⟨hsig.1, ?_, ?_⟩
          · exact sorted_snoc hs this
          · intro n hn
            rw [hsig.2]
            rcases List.mem_append.1 hn with h1 | h1
            · have := hr n h1; omega
            · simp at h1; omega
      | false =>
        rw [hc] at he
        simp only [Bool.false_eq_true, if_false] at he
        subst he
        constructor
        · simp only [true_iff]
          intro ha
          have := hinc.2 ha.2
          rw [hc] at this; cases this
        · intro r h; cases h
    by_cases hT : x.num ≥ s.tableSize
    · rw [if_pos hT]
      by_cases hM : x.num ≥ intMax
      · rw [if_pos hM]
        constructor
        · constructor
          · intro h; cases h
          · intro h
            exact absurd ⟨h0, fun m hm => by have := hr m hm; omega⟩ h
        · intro r h; cases h
      · rw [if_neg hM]; exact hrest (x.num + 1) (by omega) (by omega) _ rfl
    · rw [if_neg hT]; exact hrest s.tableSize (Int.le_refl _) (by omega) _ rfl
  · rw [if_pos h0]
    constructor
    · simp only [true_iff]
      intro ha; exact h0 ha.1
    · intro r h; cases h

theorem inv0_create {set : Settings} {s : State G} (h : create set = .ok s) : Inv0 s [] := by
  unfold create at h
  split at h <;> cases h
  exact ⟨rfl, by simp, by simp⟩

theorem run_inv0 [Group G] {set : Settings} : ∀ (xs : List (FrameIn G)) {s : State G} {ns : List Int},
    Inv0 s ns → ∀ r, run set s xs = .ok r → Inv0 r.1 (ns ++ xs.map (·.num)) := by
  intro xs
  induction xs with
  | nil => intro s ns hi r h; cases h; simpa using hi
  | cons x xs ih =>
    intro s ns hi r h
    unfold run at h
    cases ha : addFrame set s x with
    | error e => rw [ha] at h; cases h
    | ok p =>
      obtain ⟨s1, o⟩ := p
      rw [ha] at h
      simp only at h
      cases hr : run set s1 xs with
      | error e => rw [hr] at h; cases h
      | ok q =>
        obtain ⟨s2, os⟩ := q
        rw [hr] at h
        cases h
        have := ih ((addFrame_inv0 hi x).2 _ ha) _ hr
        simpa using this

theorem run_append [Group G] {set : Settings} : ∀ (xs ys : List (FrameIn G)) (s : State G),
    run set s (xs ++ ys) = (match run set s xs with
      | .error e => .error e
      | .ok (s1, r1) =>
        match run set s1 ys with
        | .error e => .error e
        | .ok (s2, r2) => .ok (s2, r1 ++ r2)) := by
  intro xs
  induction xs with
  | nil =>
    intro ys s
    simp only [List.nil_append, run]
    cases run set s ys <;> rfl
  | cons x xs ih =>
    intro ys s
    simp only [List.cons_append, run]
    cases addFrame set s x with
    | error e => rfl
    | ok p =>
      simp only [ih]
      cases run set p.1 xs with
      | error e => rfl
      | ok q =>
        simp only
        cases run set q.1 ys <;> rfl

/-- The frames returned by a run: none until the initialization. -/
def returned (skip : Nat) (ns : List Int) : List (Option Int) :=
  (ns.take (skip + 1)).map (fun _ => none) ++ (ns.drop (skip + 1)).map some

theorem run_inv [Group G] {set : Settings} (hv : Valid set) : ∀ (xs : List (FrameIn G)) {s : State G}
    {ns : List Int}, Inv set s ns → (ns ++ xs.map (·.num)).Pairwise (· < ·) →
    (∀ x ∈ xs, 0 < x.num ∧ x.num < intMax) →
    ∃ s' rs, run set s xs = .ok (s', rs) ∧ Inv set s' (ns ++ xs.map (·.num)) ∧
      returned (policyOf set).skip (ns ++ xs.map (·.num)) = returned (policyOf set).skip ns ++ rs := by
  intro xs
  induction xs with
  | nil => intro s ns hi _ _; exact ⟨s, [], rfl, by simpa using hi, by simp⟩
  | cons x xs ih =>
    intro s ns hi hp hb
    have hacc : Acceptable ns x.num := by
      refine ⟨(hb x (by simp)).1, fun m hm => ?_⟩
      exact (List.pairwise_append.1 hp).2.2 m hm x.num (by simp)
    have hm := (hb x (by simp)).2
    have hp' : ((ns ++ [x.num]) ++ xs.map (·.num)).Pairwise (· < ·) := by simpa using hp
    have hb' : ∀ x ∈ xs, 0 < x.num ∧ x.num < intMax := fun y hy => hb y (by simp [hy])
    have step : ∃ s1 o, addFrame set s x = .ok (s1, o) ∧ Inv set s1 (ns ++ [x.num]) ∧
        o = if ns.length < (policyOf set).skip + 1 then none else some x.num := by
      by_cases h1 : ns.length < (policyOf set).skip + 1
      · obtain ⟨s1, e, hi1, _⟩ := step_skip hi hacc hm h1
        exact ⟨s1, none, e, hi1, by rw [if_pos h1]⟩
      · by_cases h2 : ns.length = (policyOf set).skip + 1
        · obtain ⟨s1, _, _, _, e, hi1, _⟩ := step_init hv hi hacc hm h2
          exact ⟨s1, _, e, hi1, by rw [if_neg h1]⟩
        · obtain ⟨s1, _, e, hi1, _⟩ := step_track hv hi hacc hm (by omega)
          exact ⟨s1, _, e, hi1, by rw [if_neg h1]⟩
    obtain ⟨s1, o, e1, hi1, ho⟩ := step
    obtain ⟨s2, os, e2, hi2, hret⟩ := ih hi1 hp' hb'
    refine ⟨s2, o :: os, ?_, by simpa using hi2, ?_⟩
    · unfold run; rw [e1]; simp only; rw [e2]
    · have e3 : returned (policyOf set).skip (ns ++ [x.num])
          = returned (policyOf set).skip ns ++ [o] := by
        unfold returned
        by_cases h1 : ns.length < (policyOf set).skip + 1
        · rw [ho, if_pos h1, List.take_of_length_le (by simp; omega), List.drop_eq_nil_of_le (by simp; omega),
            List.take_of_length_le (by omega), List.drop_eq_nil_of_le (by omega)]
          simp
        · rw [ho, if_neg h1, List.take_append_of_le_length (by omega),
            List.drop_append_of_le_length (by omega)]
          simp
      have : ns ++ (x :: xs).map (·.num) = (ns ++ [x.num]) ++ xs.map (·.num) := by simp
      rw [this, hret, e3]; simp

/-- A legal history of frame numbers. -/
theorem run_create [Group G] {set : Settings} (hv : Valid set) {s0 : State G} (hc : create set = .ok s0)
    {xs : List (FrameIn G)} (hp : (xs.map (·.num)).Pairwise (· < ·))
    (hb : ∀ x ∈ xs, 0 < x.num ∧ x.num < intMax) :
    ∃ s rs, run set s0 xs = .ok (s, rs) ∧ Inv set s (xs.map (·.num)) ∧
      rs = returned (policyOf set).skip (xs.map (·.num)) := by
  obtain ⟨s, rs, e, hi, hr⟩ := run_inv hv xs (inv_create hc) (by simpa using hp) hb
  refine ⟨s, rs, e, by simpa using hi, ?_⟩
  have : returned (policyOf set).skip [] = [] := by simp [returned]
  rw [this] at hr
  simpa using hr.symm

/-! ## `destructed` is only called by the destructor -/

theorem writePose_log {s s' : State G} {n : Int} {g : G} (h : writePose s n g = .ok s') :
    s'.log = s.log := by
  unfold writePose at h
  split at h <;> cases h
  rfl

theorem foldlM_log {α : Type} {f : State G → α → Except Err (State G)}
    (hok : ∀ s a s', f s a = .ok s' → s'.log = s.log) :
    ∀ (l : List α) (s s' : State G), l.foldlM f s = .ok s' → s'.log = s.log := by
  intro l
  induction l with
  | nil => intro s s' h; cases h; rfl
  | cons a l ih =>
    intro s s' h
    rw [List.foldlM_cons] at h
    cases hf : f s a with
    | error e => rw [hf] at h; cases h
    | ok s1 => rw [hf] at h; exact (ih s1 s' h).trans (hok _ _ _ hf)

theorem runBA_log [Group G] {set : Settings} {s s' : State G} {ba : Int → G}
    (h : runBundleAdjustment set s ba = .ok s') : s'.log = s.log := by
  unfold runBundleAdjustment at h
  split at h
  · cases h; rfl
  · split at h
    · cases h
    · have := foldlM_log (f := refreshKeyFrame (G := G)) (by
        intro s a s' h
        unfold refreshKeyFrame at h
        split at h
        · cases h
        · rename_i s1 h1
          exact (foldlM_log (fun _ _ _ h => writePose_log h) _ _ _ h).trans (writePose_log h1)) _ _ _ h
      exact this

theorem addFrame_no_destructed [Group G] {set : Settings} {s : State G} {x : FrameIn G}
    {r : State G × Option Int} (h : addFrame set s x = .ok r) (hd : destructedOf s.log = []) :
    destructedOf r.1.log = [] := by
  unfold addFrame adjustWorldToFrameSizes at h
  have key : ∀ s1 : State G, destructedOf s1.log = [] →
      (if !s1.isInitialized then addFrameInit set s1 x else addFrameTrack set s1 x) = .ok r →
      destructedOf r.1.log = [] := by
    intro s1 h1 h
    split at h
    · unfold addFrameInit at h
      simp only at h
      split at h
      · cases h; exact h1
      split at h
      · cases h
      · rename_i s2 h2
        have h2' := foldlM_log (fun _ _ _ h => writePose_log h) _ _ _ h2
        split at h
        · cases h
          show destructedOf (s2.log ++ _) = []
          rw [destructedOf_append, h2', h1]; rfl
        · cases h
    · unfold addFrameTrack at h
      split at h
      · cases h
      simp only at h
      split at h
      · cases h
      split at h
      · cases h
      rename_i s2 h2
      have h2' : destructedOf s2.log = [] := by
        rw [writePose_log h2]
        show destructedOf (s1.log ++ _) = []
        rw [destructedOf_append, h1]; rfl
      split at h
      · cases h
      split at h
      · split at h
        · cases h
        · cases h; exact h2'
      · split at h
        · split at h
          · cases h
          · rename_i s3 h3
            cases h
            unfold addKeyFrame at h3
            simp only at h3
            split at h3
            · cases h3
            · have h4 := runBA_log h3
              show destructedOf s3.log = []
              rw [h4, destructedOf_append]
              have : ∀ W, destructedOf (marginalizeFrames set { s2 with keyFrames := W }).log = [] := by
                intro W
                unfold marginalizeFrames
                split
                · show destructedOf (s2.log ++ _) = []
                  rw [destructedOf_append, h2']; rfl
                · exact h2'
              rw [this]; rfl
        · cases h; exact h2'
  split at h
  · cases h
  · rename_i s1 hs1
    split at hs1
    · cases hs1
    · split at hs1
      · split at hs1
        · cases hs1
        · cases hs1
          split at h
          · exact key { s with tableSize := x.num + 1, frameNumbers := s.frameNumbers ++ [x.num] } hd h
          · cases h
      · cases hs1
        split at h
        · exact key { s with frameNumbers := s.frameNumbers ++ [x.num] } hd h
        · cases h

theorem run_no_destructed [Group G] {set : Settings} : ∀ (xs : List (FrameIn G)) {s : State G}
    {r : State G × List (Option Int)}, run set s xs = .ok r → destructedOf s.log = [] →
    destructedOf r.1.log = [] := by
  intro xs
  induction xs with
  | nil => intro s r h hd; cases h; exact hd
  | cons x xs ih =>
    intro s r h hd
    unfold run at h
    cases ha : addFrame set s x with
    | error e => rw [ha] at h; cases h
    | ok p =>
      obtain ⟨s1, o⟩ := p
      rw [ha] at h
      simp only at h
      cases hr : run set s1 xs with
      | error e => rw [hr] at h; cases h
      | ok q =>
        obtain ⟨s2, os⟩ := q
        rw [hr] at h
        cases h
        exact ih (r := (s2, os)) hr (addFrame_no_destructed (r := (s1, o)) ha hd)

end Mdso.Dso
