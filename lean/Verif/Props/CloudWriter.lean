import Verif.Lemmas.CloudWriter
import Verif.Props.DsoSystem

/-!
# C16 (point clouds), C59 (file placement), C61 (ground truth clouds)
-/

set_option autoImplicit false

namespace Mdso.Cloud
open Mdso.Ply Mdso.Util Mdso.PlySpec

variable {K Pix D α : Type}

/-! ## C59 -/

/-- C59. For every non-empty directory name without a trailing separator, adding one does not change the
resulting path, which is the name inside the directory. -/
theorem C59_same_path_partial (dir name : List Char) (hne : dir ≠ []) (hs : dir.getLast? ≠ some '/') :
    fileInDir (dir ++ ['/']) name = fileInDir dir name ∧ fileInDir dir name = dir ++ '/' :: name := by
  have h1 : fileInDir dir name = dir ++ '/' :: name := by
    unfold fileInDir
    rw [if_neg (by simp [hs])]; simp
  refine ⟨?_, h1⟩
  rw [h1]
  unfold fileInDir
  have : 0 < dir.length := List.length_pos_of_ne_nil hne
  rw [if_pos (by simp; omega)]; simp

example : fileInDir "out/x/".toList "a.ply".toList = "out/x/a.ply".toList ∧
    fileInDir "out/x".toList "a.ply".toList = "out/x/a.ply".toList := by decide

/-- C59 is violated for the root directory, whose name ends with a separator: the separator is doubled,
and the empty name (the current directory elsewhere) means the root. -/
theorem C59_root_violated (name : List Char) :
    fileInDir "/".toList name = '/' :: '/' :: name ∧ fileInDir [] name = '/' :: name ∧
      fileInDir "/".toList name ≠ fileInDir [] name := by
  refine ⟨rfl, rfl, ?_⟩
  intro h
  have := congrArg List.length h
  simp [fileInDir] at this

/-! ## C16 -/

/-- The vertices a keyframe contributes: its optimized points, then its immature points with at least one
successful trace, each at its depth on its pixel's ray and with its pixel's colour. -/
def reported (sc : Scene K Pix D α) (kf : Kf K Pix D) : List (Pt α × Vec3b) :=
  kf.optimizedPoints.map (fun o => (sc.place kf.frame o.p o.depth, sc.colorAt kf.frame o.p)) ++
  (kf.immaturePoints.filter (fun i => decide (1 ≤ i.numTraced))).map
    (fun i => (sc.place kf.frame i.p i.depth, sc.colorAt kf.frame i.p))

theorem reported_eq (sc : Scene K Pix D α) :
    (fun kf => (points sc kf).zip (colors sc kf)) = reported sc := by
  funext kf
  rw [zip_eq]
  unfold reported
  rfl

/-- C16, cloud file: after any history of calls (each with any keyframes), if the points fit the `int`
counter, the cloud file declares as many vertices as it lists, and lists exactly the reported vertices
of the keyframes given so far, keyframe by keyframe in call order. -/
theorem C16_cloud_file_partial (sc : Scene K Pix D α) (finite : α → Bool) (fmt : α → List Char)
    (hfmt : ∀ a, '\n' ∉ fmt a) (dir name : List Char) {w0 : Writer}
    (hc : create true dir name = .ok w0) (cs : List (List (Kf K Pix D)))
    (hsmall : (cs.flatten.flatMap (reported sc)).length ≤ 2147483647) :
    ∃ w, calls sc finite fmt w0 cs = .ok w ∧ w.cloudPath = fileInDir dir name ∧
      declaredCount w.cloud.file = some (vertexLines w.cloud.file).length ∧
      vertexLines w.cloud.file = (cs.flatten.flatMap (reported sc)).map (vertexText fmt) := by
  unfold create Ply.create at hc
  cases hc
  obtain ⟨w, e, h⟩ := calls_ok (sc := sc) (finite := finite) (fmt := fmt) cs
    (w0 := { outputDirectory := [], cloudPath := fileInDir dir name,
             cloud := { file := initialText, pointCount := 0 }, kfFiles := [] })
    (w := { outputDirectory := [], cloudPath := fileInDir dir name,
             cloud := { file := initialText, pointCount := 0 }, kfFiles := [] })
    (done := []) ⟨shape_init fmt, rfl, rfl, rfl⟩ (by
      rw [List.nil_append, reported_eq]; exact hsmall)
  refine ⟨w, e, h.path, ?_, ?_⟩
  · rw [declared_shape hfmt h.shape, vertexLines_shape hfmt h.shape]; simp
  · rw [vertexLines_shape hfmt h.shape, vertexText_eq, List.nil_append, reported_eq]

/-- C16, keyframe files: each keyframe given so far got one file, which declares and lists exactly those of
its reported vertices that are finite. -/
theorem C16_keyframe_files_partial (sc : Scene K Pix D α) (finite : α → Bool) (fmt : α → List Char)
    (hfmt : ∀ a, '\n' ∉ fmt a) (dir name : List Char) {w0 : Writer}
    (hc : create true dir name = .ok w0) (cs : List (List (Kf K Pix D)))
    (hsmall : (cs.flatten.flatMap (reported sc)).length ≤ 2147483647) :
    ∃ w, calls sc finite fmt w0 cs = .ok w ∧ w.kfFiles.length = cs.flatten.length ∧
      ∀ (i : Nat) kf, cs.flatten[i]? = some kf → ∃ path text, w.kfFiles[i]? = some (path, text) ∧
        declaredCount text = some (vertexLines text).length ∧
        vertexLines text = ((reported sc kf).filter (fun v => AllFinite finite v.1)).map
          (vertexText fmt) := by
  unfold create Ply.create at hc
  cases hc
  obtain ⟨w, e, h⟩ := calls_ok (sc := sc) (finite := finite) (fmt := fmt) cs
    (w0 := { outputDirectory := [], cloudPath := fileInDir dir name,
             cloud := { file := initialText, pointCount := 0 }, kfFiles := [] })
    (w := { outputDirectory := [], cloudPath := fileInDir dir name,
             cloud := { file := initialText, pointCount := 0 }, kfFiles := [] })
    (done := []) ⟨shape_init fmt, rfl, rfl, rfl⟩ (by
      rw [List.nil_append, reported_eq]; exact hsmall)
  have hf := h.files
  simp only [List.nil_append] at hf
  refine ⟨w, e, by rw [hf, List.length_map], ?_⟩
  intro i kf hkf
  obtain ⟨out, ho, h1, h2⟩ := C04_prints_finite_points finite fmt hfmt (points sc kf) (colors sc kf)
    (Nat.le_of_eq (length_eq sc kf))
  have hout : out = printedText fmt (((points sc kf).zip (colors sc kf)).filter
      (fun v => AllFinite finite v.1)) := by
    unfold printInPly at ho
    rw [filterFinite_ok finite _ _ (Nat.le_of_eq (length_eq sc kf))] at ho
    simp only at ho
    exact (Except.ok.inj ho).symm
  have hz : (points sc kf).zip (colors sc kf) = reported sc kf := congrFun (reported_eq sc) kf
  refine ⟨_, out, by rw [hf, List.getElem?_map, hkf, hout]; rfl, ?_, ?_⟩
  · rw [h1, h2, List.length_map]
    congr 1
    have e1 : points sc kf = ((points sc kf).zip (colors sc kf)).map Prod.fst := by
      rw [List.map_fst_zip (Nat.le_of_eq (length_eq sc kf))]
    conv => lhs; rw [e1]
    rw [List.filter_map, List.length_map]; rfl
  · rw [h2, hz]

theorem intText_eq (n : Int) : intText n = (toString n).toList := by
  unfold intText toStringC
  cases n with
  | ofNat m =>
    rw [if_neg (by simp)]
    show _ = (Nat.repr m).toList
    simp [Nat.repr]
  | negSucc m =>
    rw [if_pos (Int.negSucc_lt_zero m)]
    show _ = ("-" ++ Nat.repr (m + 1)).toList
    simp [Nat.repr]

/-- C16 is violated for the place of the keyframe files: whatever directory is given to the constructor,
keyframe `n`'s file is opened as `/kf<n>.ply` in the root directory. -/
theorem C16_output_directory_violated (sc : Scene K Pix D α) (finite : α → Bool)
    (fmt : α → List Char) (dir name : List Char) {w0 : Writer}
    (hc : create true dir name = .ok w0) (cs : List (List (Kf K Pix D)))
    (hsmall : (cs.flatten.flatMap (reported sc)).length ≤ 2147483647) :
    ∃ w, calls sc finite fmt w0 cs = .ok w ∧
      w.kfFiles.map (·.1) =
        cs.flatten.map (fun kf => "/kf".toList ++ (toString kf.num).toList ++ ".ply".toList) := by
  simp only [← intText_eq]
  unfold create Ply.create at hc
  cases hc
  obtain ⟨w, e, h⟩ := calls_ok (sc := sc) (finite := finite) (fmt := fmt) cs
    (w0 := { outputDirectory := [], cloudPath := fileInDir dir name,
             cloud := { file := initialText, pointCount := 0 }, kfFiles := [] })
    (w := { outputDirectory := [], cloudPath := fileInDir dir name,
             cloud := { file := initialText, pointCount := 0 }, kfFiles := [] })
    (done := []) ⟨shape_init fmt, rfl, rfl, rfl⟩ (by
      rw [List.nil_append, reported_eq]; exact hsmall)
  refine ⟨w, e, ?_⟩
  rw [h.files, List.map_map]; rfl

/-- A scene for the examples: a pixel is a number, placed at (frame, pixel, depth). -/
def exScene : Scene Nat Nat Nat Nat :=
  { place := fun k p d => ⟨k, p, d⟩, colorAt := fun _ p => ⟨if p = 0 then 0 else 1, 2, 3⟩ }

/-- Two keyframes; the second has an immature point never traced. -/
def exKfs : List (Kf Nat Nat Nat) :=
  [⟨12, 7, [⟨0, 3⟩, ⟨4, 5⟩], []⟩, ⟨15, 8, [⟨1, 1⟩], [⟨2, 9, 0⟩, ⟨6, 2, 1⟩]⟩]

-- Two calls; three optimized points and one traced immature point; both keyframe files in the root.
example : (([exKfs, []] : List (List (Kf Nat Nat Nat))).flatten.flatMap (reported exScene)).map
      (vertexText (Nat.toDigits 10))
    = ["7 0 3 3 2 0".toList, "7 4 5 3 2 1".toList, "8 1 1 3 2 1".toList, "8 6 2 3 2 1".toList] ∧
    (∃ w0 w, create true "out".toList "c.ply".toList = .ok w0 ∧
      calls exScene (fun _ => true) (Nat.toDigits 10) w0 [exKfs, []] = .ok w ∧
      w.kfFiles.map (·.1) = ["/kf12.ply".toList, "/kf15.ply".toList]) :=
  ⟨by decide, _, _, rfl, rfl, by decide⟩

/-! ## C61 -/

section GT
open Mdso.Dso

variable {G : Type}

/-- The frames of a keyframe with their estimated poses in the world: the keyframe itself, then its tracked
frames. -/
def estimatedPoses [Group G] (kf : Dso.KeyFrame G) : List (Int × G) :=
  (kf.num, kf.thisToWorld) ::
    kf.trackedFrames.map (fun f => (f.num, kf.thisToWorld * f.baseToThis⁻¹))

/-- The vertices of one frame: its ground truth points, scaled and moved by the estimated pose, each with
the colour of the same index. -/
def gtVertices' (act : G → Pt α → Pt α) (scale : Pt α → Pt α) (pts : List (List (Pt α)))
    (cols : List (List Vec3b)) (f : Int × G) : List (Pt α × Vec3b) :=
  match pts[f.1.toNat]?, cols[f.1.toNat]? with
  | some ps, some cs => (ps.map (fun p => act f.2 (scale p))).zip cs
  | _, _ => []

theorem gtVertices_eq (act : G → Pt α → Pt α) (scale : Pt α → Pt α) (pts : List (List (Pt α)))
    (cols : List (List Vec3b)) : gtVertices act scale pts cols = gtVertices' act scale pts cols := by
  funext f
  unfold gtVertices gtVertices'
  cases pts[f.1.toNat]? <;> cases cols[f.1.toNat]? <;> simp

/-- C61. In every life of a system that got initialized, with ground truth for every frame and few enough
points: the ground truth cloud declares as many vertices as it lists and lists exactly the ground truth
points of all frames of all keyframes handed over, in hand-over order, placed by the estimated poses. -/
theorem C61_gt_cloud_partial [Group G] {set : Settings} (hv : Valid set) {s0 : State G}
    (hc : Dso.create set = .ok s0) {xs : List (FrameIn G)} (hl : Legal (xs.map (·.num)))
    (hini : set.firstFramesSkip.toNat + 2 ≤ xs.length)
    (act : G → Pt α → Pt α) (scale : Pt α → Pt α) (fmt : α → List Char) (hfmt : ∀ a, '\n' ∉ fmt a)
    (pts : List (List (Pt α))) (cols : List (List Vec3b)) (poses : Nat)
    (hgt : ∀ x ∈ xs, x.num < pts.length ∧ x.num < cols.length ∧ x.num < poses)
    (hsmall : ∀ s, ((s : List (Int × G)).map (·.1)).Nodup → (∀ f ∈ s, ∃ x ∈ xs, x.num = f.1) →
      (s.flatMap (gtVertices' act scale pts cols)).length ≤ 2147483647) :
    ∃ s rs w, Dso.run set s0 xs = .ok (s, rs) ∧
      WriterGT.steps act fmt scale ⟨pts, cols, poses, none, ⟨initialText, 0⟩⟩ (destroy s) = .ok w ∧
      declaredCount w.cloud.file = some (vertexLines w.cloud.file).length ∧
      vertexLines w.cloud.file = (((createdOf s).flatMap estimatedPoses).flatMap
        (gtVertices' act scale pts cols)).map (vertexText fmt) := by
  obtain ⟨s, rs, e, hi, hh, hd⟩ := run_create_logHead hv hc hl
  unfold LogHead at hh
  rw [if_pos (by simpa [policyOf] using hini)] at hh
  obtain ⟨k0, k1, rest, hlog, hk0, hk1, hr⟩ := hh
  have hnum : ∀ n : Int, n ∈ xs.map (·.num) → 0 ≤ n ∧ n < pts.length ∧ n < cols.length ∧ n < poses := by
    intro n hn
    have := (hl.2 n hn).1
    obtain ⟨x, hx, rfl⟩ := List.mem_map.1 hn
    exact ⟨by omega, hgt x hx⟩
  -- the frames handed over
  have hout : (rest ++ [Event.destructed s.keyFrames]).flatMap outputOf = createdOf s := by
    have h1 : rest.flatMap outputOf = marginalizedOf s.log := by
      rw [← output_eq hd, hlog]; rfl
    rw [List.flatMap_append, h1]
    simp [outputOf, createdOf]
  have hfp : ∀ kfs : List (Dso.KeyFrame G), (kfs.flatMap framePoses).map (·.1) = framesOf kfs := by
    intro kfs
    induction kfs with
    | nil => rfl
    | cons k ks ih =>
      rw [List.flatMap_cons, List.map_append, ih]
      simp [framesOf, framePoses, Function.comp_def]
  have hmem : ∀ f ∈ (createdOf s).flatMap framePoses, f.1 ∈ xs.map (·.num) := by
    intro f hf
    have : f.1 ∈ framesOf (createdOf s) := by rw [← hfp]; exact List.mem_map_of_mem hf
    rw [Traj.created_frames hi] at this
    exact Mdso.FrameSpec.mem_frames this
  have hnd : (((createdOf s).flatMap framePoses).map (·.1)).Nodup := by
    rw [hfp]; exact Traj.frames_nodup hi
  let w1 : WriterGT α := ⟨pts, cols, poses, some scale, ⟨initialText, 0⟩⟩
  have hsm : ((([] : List (Int × G)) ++ ((rest ++ [Event.destructed s.keyFrames]).flatMap
      outputOf).flatMap framePoses).flatMap (gtVertices act scale pts cols)).length ≤ Ply.intMax := by
    rw [List.nil_append, hout, gtVertices_eq]
    refine hsmall _ hnd ?_
    intro f hf
    obtain ⟨x, hx, h⟩ := List.mem_map.1 (hmem f hf)
    exact ⟨x, hx, h⟩
  obtain ⟨w, ew, hw⟩ := steps_ok (act := act) (scale := scale) (fmt := fmt)
    (w0 := ⟨pts, cols, poses, none, ⟨initialText, 0⟩⟩) (rest ++ [Event.destructed s.keyFrames])
    (w := w1) (done := []) ⟨shape_init fmt, rfl, rfl, rfl⟩ rfl
    (by
      intro e he kfs h
      rcases List.mem_append.1 he with he | he
      · exact hr e he kfs h
      · simp at he; rw [he] at h; cases h)
    (by
      rw [hout]
      intro f hf
      have := hnum _ (hmem f hf)
      exact ⟨this.1, this.2.1, this.2.2.1⟩)
    hsm
  refine ⟨s, rs, w, e, ?_, ?_, ?_⟩
  · unfold destroy
    rw [hlog, List.cons_append]
    unfold WriterGT.steps
    have : WriterGT.step act fmt scale ⟨pts, cols, poses, none, ⟨initialText, 0⟩⟩
        (.initialized [k0, k1] : Event G) = .ok w1 := by
      have a := hnum _ hk0
      have b := hnum _ hk1
      unfold WriterGT.step WriterGT.initialized
      simp only [List.head?_cons, List.getLast?_cons_cons, List.getLast?_singleton, List.length_cons,
        List.length_nil]
      rw [if_neg (by omega), if_pos ⟨a.1, a.2.2.2, b.1, b.2.2.2⟩]
    rw [this]; simp only; exact ew
  · rw [declared_shape hfmt hw.shape, vertexLines_shape hfmt hw.shape]; simp
  · rw [vertexLines_shape hfmt hw.shape, vertexText_eq, List.nil_append, hout]
    simp only [gtVertices_eq]
    rfl

/-- C61 is violated by a system destroyed before it was initialized: the process aborts in the
destructor. -/
theorem C61_destroyed_early_violated [Group G] {set : Settings} (hv : Valid set) {s0 : State G}
    (hc : Dso.create set = .ok s0) {xs : List (FrameIn G)} (hl : Legal (xs.map (·.num)))
    (hini : xs.length < set.firstFramesSkip.toNat + 2)
    (act : G → Pt α → Pt α) (scale : Pt α → Pt α) (fmt : α → List Char)
    (pts : List (List (Pt α))) (cols : List (List Vec3b)) (poses : Nat) :
    ∃ s rs, Dso.run set s0 xs = .ok (s, rs) ∧
      WriterGT.steps act fmt scale ⟨pts, cols, poses, none, ⟨initialText, 0⟩⟩ (destroy s)
        = .error .abort := by
  obtain ⟨s, rs, e, hi, hh, hd⟩ := run_create_logHead hv hc hl
  unfold LogHead at hh
  rw [if_neg (by simp [policyOf]; omega)] at hh
  exact ⟨s, rs, e, by unfold destroy; rw [hh]; rfl⟩

example := C61_destroyed_early_violated (G := Multiplicative Int) (α := Nat) exValid exState_created
  (xs := []) ⟨by decide, by decide⟩ (by decide) (fun _ p => p) id (Nat.toDigits 10) [] [] 0

example := C61_gt_cloud_partial (G := Multiplicative Int) exValid exState_created exLegal (by decide)
  (fun _ p => p) id (Nat.toDigits 10) nl_not_digits (List.replicate 20 []) (List.replicate 20 []) 20
  (by decide) (by
    intro s _ _
    have : s.flatMap (gtVertices' (fun (_ : Multiplicative Int) p => p) id
        (List.replicate 20 ([] : List (Pt Nat))) (List.replicate 20 [])) = [] := by
      rw [List.flatMap_eq_nil_iff]
      intro f _
      unfold gtVertices'
      split
      · rename_i h1 h2
        have := List.eq_of_mem_replicate (List.mem_of_getElem? h1)
        subst this; simp
      · rfl
    rw [this]; decide)

end GT

end Mdso.Cloud
