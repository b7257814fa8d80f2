import Verif.Model.CloudWriter
import Verif.Lemmas.PlyHolder
import Verif.Lemmas.TrajectoryWriter
import Verif.Props.PrintInPly

set_option autoImplicit false

namespace Mdso.Cloud
open Mdso.Ply Mdso.Util

variable {K Pix D α : Type}

/-- The points and colours paired. -/
theorem zip_eq (sc : Scene K Pix D α) (kf : Kf K Pix D) :
    (points sc kf).zip (colors sc kf) =
      kf.optimizedPoints.map (fun o => (sc.place kf.frame o.p o.depth, sc.colorAt kf.frame o.p)) ++
      (kf.immaturePoints.filter (fun ip => decide (ip.numTraced > 0))).map
        (fun ip => (sc.place kf.frame ip.p ip.depth, sc.colorAt kf.frame ip.p)) := by
  unfold points colors
  rw [List.zip_append (by simp)]
  congr 1
  · rw [List.zip_map']
  · rw [List.zip_map']

theorem length_eq (sc : Scene K Pix D α) (kf : Kf K Pix D) :
    (points sc kf).length = (colors sc kf).length := by simp [points, colors]

/-- What is known of the writer after the keyframes `kfs` were put. -/
structure CInv (sc : Scene K Pix D α) (finite : α → Bool) (fmt : α → List Char)
    (w0 w : Writer) (k : Nat) (kfs : List (Kf K Pix D)) : Prop where
  shape : Shape fmt (kfs.flatMap (fun kf => (points sc kf).zip (colors sc kf))) k w.cloud
  dir : w.outputDirectory = w0.outputDirectory
  path : w.cloudPath = w0.cloudPath
  files : w.kfFiles = kfs.map (fun kf =>
    (w0.outputDirectory ++ "/kf".toList ++ intText kf.num ++ ".ply".toList,
      printedText fmt (((points sc kf).zip (colors sc kf)).filter
        (fun v => AllFinite finite v.1))))

theorem putKeyFrame_ok {sc : Scene K Pix D α} {finite : α → Bool} {fmt : α → List Char}
    {w0 w : Writer} {k : Nat} {done : List (Kf K Pix D)} (h : CInv sc finite fmt w0 w k done)
    (kf : Kf K Pix D)
    (hle : ((done ++ [kf]).flatMap (fun kf => (points sc kf).zip (colors sc kf))).length ≤ Ply.intMax) :
    ∃ w', putKeyFrame sc finite fmt w kf = .ok w' ∧ CInv sc finite fmt w0 w' k (done ++ [kf]) := by
  have e1 : printInPly finite fmt (points sc kf) (colors sc kf) = .ok (printedText fmt
      (((points sc kf).zip (colors sc kf)).filter (fun v => AllFinite finite v.1))) := by
    unfold printInPly
    rw [filterFinite_ok finite _ _ (Nat.le_of_eq (length_eq sc kf))]
  rw [List.flatMap_append] at hle
  simp only [List.flatMap_cons, List.flatMap_nil, List.append_nil] at hle
  obtain ⟨h', e2⟩ := put_ok h.shape hle
  have hs := shape_put h.shape e2
  refine ⟨{ w with cloud := h', kfFiles := w.kfFiles ++ [(w.outputDirectory ++ "/kf".toList ++
    intText kf.num ++ ".ply".toList, printedText fmt
      (((points sc kf).zip (colors sc kf)).filter (fun v => AllFinite finite v.1)))] }, ?_, ?_⟩
  · unfold putKeyFrame; rw [e1]; simp only; rw [e2]
  · refine ⟨?_, h.dir, h.path, ?_⟩
    · rw [List.flatMap_append]; simpa using hs
    · show w.kfFiles ++ _ = _
      rw [h.files, List.map_append, h.dir]; rfl

theorem putKeyFrames_ok {sc : Scene K Pix D α} {finite : α → Bool} {fmt : α → List Char}
    {w0 : Writer} {k : Nat} : ∀ (kfs : List (Kf K Pix D)) {w : Writer} {done : List (Kf K Pix D)},
    CInv sc finite fmt w0 w k done →
    ((done ++ kfs).flatMap (fun kf => (points sc kf).zip (colors sc kf))).length ≤ Ply.intMax →
    ∃ w', putKeyFrames sc finite fmt w kfs = .ok w' ∧ CInv sc finite fmt w0 w' k (done ++ kfs)
  | [], w, done, h, _ => ⟨w, rfl, by simpa using h⟩
  | kf :: kfs, w, done, h, hle => by
    obtain ⟨w1, e1, h1⟩ := putKeyFrame_ok h kf (by
      refine Nat.le_trans ?_ hle
      simp only [List.flatMap_append, List.flatMap_cons, List.flatMap_nil, List.length_append,
        List.length_nil]
      omega)
    obtain ⟨w2, e2, h2⟩ := putKeyFrames_ok kfs h1 (by simpa using hle)
    refine ⟨w2, ?_, by simpa using h2⟩
    unfold putKeyFrames; rw [e1]; simp only; rw [e2]

theorem call_ok {sc : Scene K Pix D α} {finite : α → Bool} {fmt : α → List Char}
    {w0 w : Writer} {k : Nat} {done : List (Kf K Pix D)} (h : CInv sc finite fmt w0 w k done)
    (kfs : List (Kf K Pix D))
    (hle : ((done ++ kfs).flatMap (fun kf => (points sc kf).zip (colors sc kf))).length ≤ Ply.intMax) :
    ∃ w', keyFramesMarginalized sc finite fmt w kfs = .ok w' ∧
      CInv sc finite fmt w0 w'
        ((done ++ kfs).flatMap (fun kf => (points sc kf).zip (colors sc kf))).length (done ++ kfs) := by
  obtain ⟨w1, e1, h1⟩ := putKeyFrames_ok kfs h hle
  obtain ⟨h', e2⟩ := update_ok h1.shape
  refine ⟨{ w1 with cloud := h' }, ?_, ?_⟩
  · unfold keyFramesMarginalized; rw [e1]; simp only; rw [e2]
  · exact ⟨shape_update h1.shape e2, h1.dir, h1.path, h1.files⟩

theorem calls_ok {sc : Scene K Pix D α} {finite : α → Bool} {fmt : α → List Char}
    {w0 : Writer} : ∀ (cs : List (List (Kf K Pix D))) {w : Writer} {done : List (Kf K Pix D)},
    CInv sc finite fmt w0 w
      (done.flatMap (fun kf => (points sc kf).zip (colors sc kf))).length done →
    ((done ++ cs.flatten).flatMap (fun kf => (points sc kf).zip (colors sc kf))).length ≤ Ply.intMax →
    ∃ w', calls sc finite fmt w cs = .ok w' ∧ CInv sc finite fmt w0 w'
      ((done ++ cs.flatten).flatMap (fun kf => (points sc kf).zip (colors sc kf))).length
      (done ++ cs.flatten)
  | [], w, done, h, _ => ⟨w, rfl, by simpa using h⟩
  | c :: cs, w, done, h, hle => by
    obtain ⟨w1, e1, h1⟩ := call_ok h c (by
      refine Nat.le_trans ?_ hle
      simp only [List.flatten_cons, List.flatMap_append, List.length_append]
      omega)
    obtain ⟨w2, e2, h2⟩ := calls_ok cs h1 (by simpa using hle)
    refine ⟨w2, ?_, by simpa using h2⟩
    unfold calls; rw [e1]; simp only; rw [e2]

/-! ## Ground truth clouds -/

open Mdso.Dso Mdso.FrameSpec

/-- The vertices of one frame. -/
def gtVertices {G : Type} (act : G → Pt α → Pt α) (scale : Pt α → Pt α)
    (pts : List (List (Pt α))) (cols : List (List Vec3b)) (f : Int × G) : List (Pt α × Vec3b) :=
  (((pts[f.1.toNat]?).getD []).map (fun p => act f.2 (scale p))).zip ((cols[f.1.toNat]?).getD [])

/-- What is known of the ground truth writer after the frames `fs` were put. -/
structure GTInv {G : Type} (act : G → Pt α → Pt α) (scale : Pt α → Pt α) (fmt : α → List Char)
    (w0 w : WriterGT α) (k : Nat) (fs : List (Int × G)) : Prop where
  shape : Shape fmt (fs.flatMap (gtVertices act scale w0.pointsInFrameGT w0.colors)) k w.cloud
  pts : w.pointsInFrameGT = w0.pointsInFrameGT
  cols : w.colors = w0.colors
  poses : w.poses = w0.poses

theorem at?_ok {β : Type} {l : List β} {i : Int} (h0 : 0 ≤ i) (h1 : i < l.length) :
    at? l i = .ok ((l[i.toNat]?).getD (l[i.toNat]'(by omega))) := by
  unfold at?
  rw [if_pos h0, List.getElem?_eq_getElem (by omega)]
  rfl

theorem putFrame_ok {G : Type} {act : G → Pt α → Pt α} {scale : Pt α → Pt α} {fmt : α → List Char}
    {w0 w : WriterGT α} {k : Nat} {fs : List (Int × G)} (h : GTInv act scale fmt w0 w k fs)
    (f : Int × G) (h0 : 0 ≤ f.1) (h1 : f.1 < w0.pointsInFrameGT.length) (h2 : f.1 < w0.colors.length)
    (hle : ((fs ++ [f]).flatMap (gtVertices act scale w0.pointsInFrameGT w0.colors)).length ≤ Ply.intMax) :
    ∃ w', w.putFrame act fmt scale f.1 f.2 = .ok w' ∧ GTInv act scale fmt w0 w' k (fs ++ [f]) ∧
      w'.aligner = w.aligner := by
  have e1 : at? w.pointsInFrameGT f.1 = .ok ((w0.pointsInFrameGT[f.1.toNat]?).getD []) := by
    rw [h.pts, at?_ok h0 h1, List.getElem?_eq_getElem (by omega)]; rfl
  have e2 : at? w.colors f.1 = .ok ((w0.colors[f.1.toNat]?).getD []) := by
    rw [h.cols, at?_ok h0 h2, List.getElem?_eq_getElem (by omega)]; rfl
  rw [List.flatMap_append] at hle
  simp only [List.flatMap_cons, List.flatMap_nil, List.append_nil] at hle
  obtain ⟨h', e3⟩ := put_ok h.shape (ps := (((w0.pointsInFrameGT[f.1.toNat]?).getD []).map
    (fun p => act f.2 (scale p)))) (cs := ((w0.colors[f.1.toNat]?).getD [])) hle
  have hs := shape_put h.shape e3
  refine ⟨{ w with cloud := h' }, ?_, ⟨?_, h.pts, h.cols, h.poses⟩, rfl⟩
  · unfold WriterGT.putFrame; rw [e1]; simp only; rw [e2]; simp only; rw [e3]
  · rw [List.flatMap_append]; simpa [gtVertices] using hs

/-- The frame number can be used with the ground truth tables. -/
def InTables (w0 : WriterGT α) (n : Int) : Prop :=
  0 ≤ n ∧ n < w0.pointsInFrameGT.length ∧ n < w0.colors.length

theorem putFrames_ok {G : Type} {act : G → Pt α → Pt α} {scale : Pt α → Pt α} {fmt : α → List Char}
    {w0 : WriterGT α} {k : Nat} : ∀ (fs : List (Int × G)) {w : WriterGT α} {done : List (Int × G)},
    GTInv act scale fmt w0 w k done → (∀ f ∈ fs, InTables w0 f.1) →
    ((done ++ fs).flatMap (gtVertices act scale w0.pointsInFrameGT w0.colors)).length ≤ Ply.intMax →
    ∃ w', w.putFrames act fmt scale fs = .ok w' ∧ GTInv act scale fmt w0 w' k (done ++ fs) ∧
      w'.aligner = w.aligner
  | [], w, done, h, _, _ => ⟨w, rfl, by simpa using h, rfl⟩
  | f :: fs, w, done, h, hr, hle => by
    obtain ⟨a0, a1, a2⟩ := hr f (by simp)
    obtain ⟨w1, e1, h1, ha1⟩ := putFrame_ok h f a0 a1 a2 (by
      refine Nat.le_trans ?_ hle
      simp only [List.flatMap_append, List.flatMap_cons, List.flatMap_nil, List.length_append,
        List.length_nil]
      omega)
    obtain ⟨w2, e2, h2, ha2⟩ := putFrames_ok fs h1 (fun g hg => hr g (by simp [hg])) (by simpa using hle)
    refine ⟨w2, ?_, by simpa using h2, ha2.trans ha1⟩
    unfold WriterGT.putFrames; rw [e1]; simp only; rw [e2]

theorem marginalized_ok {G : Type} [Group G] {act : G → Pt α → Pt α} {scale : Pt α → Pt α}
    {fmt : α → List Char} {w0 w : WriterGT α} {k : Nat} {done : List (Int × G)}
    (h : GTInv act scale fmt w0 w k done) (ha : w.aligner = some scale) (kfs : List (Dso.KeyFrame G))
    (hr : ∀ f ∈ kfs.flatMap framePoses, InTables w0 f.1)
    (hle : ((done ++ kfs.flatMap framePoses).flatMap
      (gtVertices act scale w0.pointsInFrameGT w0.colors)).length ≤ Ply.intMax) :
    ∃ w', w.marginalized act fmt kfs = .ok w' ∧ GTInv act scale fmt w0 w'
      ((done ++ kfs.flatMap framePoses).flatMap
        (gtVertices act scale w0.pointsInFrameGT w0.colors)).length
      (done ++ kfs.flatMap framePoses) ∧ w'.aligner = some scale := by
  obtain ⟨w1, e1, h1, ha1⟩ := putFrames_ok _ h hr hle
  obtain ⟨h', e2⟩ := update_ok h1.shape
  refine ⟨{ w1 with cloud := h' }, ?_, ⟨shape_update h1.shape e2, h1.pts, h1.cols, h1.poses⟩,
    ha1.trans ha⟩
  unfold WriterGT.marginalized; rw [ha]; simp only; rw [e1]; simp only; rw [e2]

/-- The keyframes given for output by one event. -/
def outputOf {G : Type} : Event G → List (Dso.KeyFrame G)
  | .marginalized kfs => kfs
  | .destructed kfs => kfs
  | _ => []

/-- Events after initialization. -/
theorem steps_ok {G : Type} [Group G] {act : G → Pt α → Pt α} {scale : Pt α → Pt α}
    {fmt : α → List Char} {w0 : WriterGT α} : ∀ (es : List (Event G)) {w : WriterGT α}
    {done : List (Int × G)}, GTInv act scale fmt w0 w
      (done.flatMap (gtVertices act scale w0.pointsInFrameGT w0.colors)).length done →
    w.aligner = some scale → (∀ e ∈ es, ∀ kfs, e ≠ .initialized kfs) →
    (∀ f ∈ (es.flatMap outputOf).flatMap framePoses, InTables w0 f.1) →
    ((done ++ (es.flatMap outputOf).flatMap framePoses).flatMap
      (gtVertices act scale w0.pointsInFrameGT w0.colors)).length ≤ Ply.intMax →
    ∃ w', w.steps act fmt scale es = .ok w' ∧ GTInv act scale fmt w0 w'
      ((done ++ (es.flatMap outputOf).flatMap framePoses).flatMap
        (gtVertices act scale w0.pointsInFrameGT w0.colors)).length
      (done ++ (es.flatMap outputOf).flatMap framePoses)
  | [], w, done, h, _, _, _, _ => ⟨w, rfl, by simpa using h⟩
  | e :: es, w, done, h, ha, hn, hr, hle => by
    have key : ∃ w1, w.step act fmt scale e = .ok w1 ∧ GTInv act scale fmt w0 w1
        ((done ++ (outputOf e).flatMap framePoses).flatMap
          (gtVertices act scale w0.pointsInFrameGT w0.colors)).length
        (done ++ (outputOf e).flatMap framePoses) ∧ w1.aligner = some scale := by
      have hr' : ∀ f ∈ (outputOf e).flatMap framePoses, InTables w0 f.1 := fun f hf => hr f (by
        rw [List.flatMap_cons, List.flatMap_append]; exact List.mem_append_left _ hf)
      have hle' : ((done ++ (outputOf e).flatMap framePoses).flatMap
          (gtVertices act scale w0.pointsInFrameGT w0.colors)).length ≤ Ply.intMax := by
        refine Nat.le_trans ?_ hle
        simp only [List.flatMap_append, List.flatMap_cons, List.length_append]
        omega
      cases e with
      | initialized kfs => exact absurd rfl (hn _ (by simp) kfs)
      | newFrame n => exact ⟨w, rfl, by simpa [outputOf] using h, ha⟩
      | newKeyFrame kf => exact ⟨w, rfl, by simpa [outputOf] using h, ha⟩
      | marginalized kfs => exact marginalized_ok h ha kfs hr' hle'
      | destructed kfs => exact marginalized_ok h ha kfs hr' hle'
    obtain ⟨w1, e1, h1, ha1⟩ := key
    obtain ⟨w2, e2, h2⟩ := steps_ok es h1 ha1 (fun e he => hn e (by simp [he]))
      (fun f hf => hr f (by
        rw [List.flatMap_cons, List.flatMap_append]; exact List.mem_append_right _ hf))
      (by simpa using hle)
    refine ⟨w2, ?_, by simpa using h2⟩
    unfold WriterGT.steps; rw [e1]; simp only; rw [e2]

/-- The log of a system is empty before initialization and starts with `initialized` afterwards; there
is no second `initialized`. -/
def LogHead {G : Type} (set : Settings) (ns : List Int) (log : List (Event G)) : Prop :=
  if (policyOf set).skip + 2 ≤ ns.length then
    ∃ k0 k1 rest, log = .initialized [k0, k1] :: rest ∧ k0.num ∈ ns ∧ k1.num ∈ ns ∧
      ∀ e ∈ rest, ∀ kfs, e ≠ .initialized kfs
  else log = []

theorem run_logHead {G : Type} [Group G] {set : Settings} (hv : Valid set) :
    ∀ (xs : List (FrameIn G)) {s : State G} {ns : List Int}, Inv set s ns → LogHead set ns s.log →
    (ns ++ xs.map (·.num)).Pairwise (· < ·) → (∀ x ∈ xs, 0 < x.num ∧ x.num < Dso.intMax) →
    ∃ s' rs, Dso.run set s xs = .ok (s', rs) ∧ Inv set s' (ns ++ xs.map (·.num)) ∧
      LogHead set (ns ++ xs.map (·.num)) s'.log := by
  intro xs
  induction xs with
  | nil => intro s ns hi hw _ _; exact ⟨s, [], rfl, by simpa using hi, by simpa using hw⟩
  | cons x xs ih =>
    intro s ns hi hw hp hb
    have hacc : Acceptable ns x.num := by
      refine ⟨(hb x (by simp)).1, fun m hm => ?_⟩
      exact (List.pairwise_append.1 hp).2.2 m hm x.num (by simp)
    have hm := (hb x (by simp)).2
    have hp' : ((ns ++ [x.num]) ++ xs.map (·.num)).Pairwise (· < ·) := by simpa using hp
    have hb' : ∀ x ∈ xs, 0 < x.num ∧ x.num < Dso.intMax := fun y hy => hb y (by simp [hy])
    have step : ∃ s1 o, addFrame set s x = .ok (s1, o) ∧ Inv set s1 (ns ++ [x.num]) ∧
        LogHead set (ns ++ [x.num]) s1.log := by
      by_cases h1 : ns.length < (policyOf set).skip + 1
      · obtain ⟨s1, e, hi1, hlog⟩ := step_skip hi hacc hm h1
        refine ⟨s1, none, e, hi1, ?_⟩
        unfold LogHead; rw [if_neg (by simp; omega)]; exact hlog
      · by_cases h2 : ns.length = (policyOf set).skip + 1
        · obtain ⟨s1, k0, k1, b, e, hi1, hlog, hk⟩ := step_init hv hi hacc hm h2
          refine ⟨s1, _, e, hi1, ?_⟩
          unfold LogHead; rw [if_pos (by simp; omega)]
          have hn := fun kf (h : kf ∈ createdOf s1) => by
            have : kf.num ∈ (createdOf s1).map (·.num) := List.mem_map_of_mem h
            rw [Traj.created_num hi1] at this
            exact this
          have hsub : ∀ n ∈ (book (policyOf set) (ns ++ [x.num])).keyFrames, n ∈ ns ++ [x.num] := by
            intro n hn
            apply mem_frames (p := policyOf set)
            simp only [Book.keyFrames, List.mem_map, Book.frames, List.mem_flatMap] at hn ⊢
            obtain ⟨e, he, rfl⟩ := hn
            exact ⟨e, he, by simp⟩
          refine ⟨k0, k1, _, hlog, hsub _ (hn k0 ?_), hsub _ (hn k1 ?_), ?_⟩
          · unfold createdOf; rw [hk]; simp
          · unfold createdOf; rw [hk]; simp
          · intro e he kfs h; simp at he; rw [he] at h; cases h
        · obtain ⟨s1, evs, e, hi1, hlog, hev⟩ := step_track hv hi hacc hm (by omega)
          refine ⟨s1, _, e, hi1, ?_⟩
          unfold LogHead at hw ⊢
          rw [if_pos (by omega)] at hw
          rw [if_pos (by simp; omega)]
          obtain ⟨k0, k1, rest, hl, hk0, hk1, hr⟩ := hw
          refine ⟨k0, k1, rest ++ .newFrame x.num :: evs, by rw [hlog, hl]; rfl, by simp [hk0],
            by simp [hk1], ?_⟩
          intro e he kfs h
          subst h
          rcases List.mem_append.1 he with he | he
          · exact hr _ he kfs rfl
          · rcases List.mem_cons.1 he with he | he
            · cases he
            · rcases hev with hev | ⟨marg, base, hev⟩
              · rw [hev] at he; simp at he
              · rw [hev] at he
                split at he <;> simp at he
    obtain ⟨s1, o, e1, hi1, hw1⟩ := step
    obtain ⟨s2, os, e2, hi2, hw2⟩ := ih hi1 hw1 hp' hb'
    refine ⟨s2, o :: os, ?_, by simpa using hi2, by simpa using hw2⟩
    unfold Dso.run; rw [e1]; simp only; rw [e2]

theorem run_create_logHead {G : Type} [Group G] {set : Settings} (hv : Valid set) {s0 : State G}
    (hc : Dso.create set = .ok s0) {xs : List (FrameIn G)} (hl : Legal (xs.map (·.num))) :
    ∃ s rs, Dso.run set s0 xs = .ok (s, rs) ∧ Inv set s (xs.map (·.num)) ∧
      LogHead set (xs.map (·.num)) s.log ∧ destructedOf s.log = [] := by
  have h0 : s0.log = [] := by unfold Dso.create at hc; split at hc <;> cases hc; rfl
  obtain ⟨s, rs, e, hi, hw⟩ := run_logHead hv xs (inv_create hc) (by
    unfold LogHead; rw [if_neg (by simp)]; exact h0)
    (by simpa using hl.1) (by simpa using hl.2)
  refine ⟨s, rs, e, by simpa using hi, by simpa using hw, ?_⟩
  refine run_no_destructed (r := (s, rs)) xs e ?_
  rw [h0]; rfl

theorem output_eq {G : Type} {log : List (Event G)} (h : destructedOf log = []) :
    log.flatMap outputOf = marginalizedOf log := by
  induction log with
  | nil => rfl
  | cons e log ih =>
    have hs : destructedOf (e :: log) = destructedOf [e] ++ destructedOf log := by
      simp [destructedOf]
    have hm : marginalizedOf (e :: log) = marginalizedOf [e] ++ marginalizedOf log := by
      simp [marginalizedOf]
    rw [hs, List.append_eq_nil_iff] at h
    rw [List.flatMap_cons, ih h.2, hm]
    congr 1
    cases e with
    | destructed kfs =>
      have : kfs = [] := by simpa [destructedOf] using h.1
      subst this; rfl
    | marginalized kfs => simp [marginalizedOf, outputOf]
    | _ => rfl

end Mdso.Cloud
