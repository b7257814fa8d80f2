import Mathlib.Data.List.Nodup
import Verif.Lemmas.SphericalPlus
import Verif.Props.BaseProjection
import Verif.Spec.BundleAdjuster

/-!
# Lemmas about bundle adjustment
-/

set_option autoImplicit false

namespace Mdso.BA

open Mdso.Geom Mdso.Light Mdso.BA.Spec

/-! ### Loops -/

theorem collectFrom_iff {α β : Type} (f : Nat → α → Except Fault (List β)) (g : Nat → α → List β) (n : Nat) (as : List α)
    (hg : ∀ j a x, f j a = .ok x → x = g j a) (bs : List β) :
    collectFrom f n as = .ok bs ↔
      (∀ j a, as[j]? = some a → ∃ x, f (n + j) a = .ok x) ∧ bs = (as.zipIdx n).flatMap fun x => g x.2 x.1 := by
  induction as generalizing n bs with
  | nil =>
    simp only [collectFrom, List.zipIdx_nil, List.flatMap_nil]
    constructor
    · intro h; cases h; exact ⟨fun j a h => by simp at h, rfl⟩
    · rintro ⟨-, rfl⟩; rfl
  | cons a as ih =>
    simp only [collectFrom, List.zipIdx_cons, List.flatMap_cons]
    constructor
    · intro h
      cases h1 : f n a with
      | error e => simp only [h1, bind, Except.bind] at h; cases h
      | ok x =>
      cases h2 : collectFrom f (n + 1) as with
      | error e => simp only [h1, h2, bind, Except.bind] at h; cases h
      | ok xs =>
      simp only [h1, h2, bind, Except.bind] at h
      cases h
      obtain ⟨i1, i2⟩ := (ih (n + 1) xs).1 h2
      refine ⟨?_, by rw [hg n a x h1, ← i2]⟩
      intro j b hj
      cases j with
      | zero => simp at hj; subst hj; exact ⟨x, by simpa using h1⟩
      | succ j =>
        obtain ⟨y, hy⟩ := i1 j b (by simpa using hj)
        exact ⟨y, by rw [← hy]; congr 1; omega⟩
    · rintro ⟨h1, h2⟩
      obtain ⟨x, hx⟩ := h1 0 a (by simp)
      rw [Nat.add_zero] at hx
      have h3 := (ih (n + 1) _).2 ⟨fun j b hj => by
        obtain ⟨y, hy⟩ := h1 (j + 1) b (by simpa using hj)
        exact ⟨y, by rw [← hy]; congr 1; omega⟩, rfl⟩
      simp only [hx, h3, bind, Except.bind]
      rw [h2, hg n a x hx]

theorem collectFrom_ub {α β : Type} (f : Nat → α → Except Fault (List β)) (n : Nat) (as : List α)
    (hf : ∀ j a e, f j a = .error e → e = .ub) (e : Fault) (h : collectFrom f n as = .error e) : e = .ub := by
  induction as generalizing n with
  | nil => cases h
  | cons a as ih =>
    unfold collectFrom at h
    cases h1 : f n a with
    | error e' =>
      simp only [h1, bind, Except.bind] at h
      cases h; exact hf n a _ h1
    | ok x =>
    cases h2 : collectFrom f (n + 1) as with
    | error e' => simp only [h1, h2, bind, Except.bind] at h; cases h; exact ih _ h2
    | ok xs => simp only [h1, h2, bind, Except.bind] at h; cases h

theorem mem_zipIdx_iff {α : Type} (l : List α) (x : α × Nat) : x ∈ l.zipIdx 0 ↔ l[x.2]? = some x.1 := by
  obtain ⟨a, i⟩ := x
  exact List.mk_mem_zipIdx_iff_getElem?

/-! ### Residual blocks -/

theorem readAt_iff (img : Pyr.Img ℝ) (pos : V2) (v : ℝ) :
    readAt img pos = .ok v ↔ (0 ≤ Util.truncInt pos.y ∧ 0 ≤ Util.truncInt pos.x ∧ (Util.truncInt pos.y).toNat < img.rows ∧
      (Util.truncInt pos.x).toNat < img.cols) ∧ v = img.px (Util.truncInt pos.y).toNat (Util.truncInt pos.x).toNat := by
  unfold readAt Pyr.Img.read
  by_cases h1 : 0 ≤ Util.truncInt pos.y ∧ 0 ≤ Util.truncInt pos.x
  · rw [if_pos h1]
    by_cases h2 : (Util.truncInt pos.y).toNat < img.rows ∧ (Util.truncInt pos.x).toNat < img.cols
    · rw [if_pos h2]
      constructor
      · intro h; cases h; exact ⟨⟨h1.1, h1.2, h2.1, h2.2⟩, rfl⟩
      · rintro ⟨-, rfl⟩; rfl
    · rw [if_neg h2]
      exact ⟨fun h => (by cases h), fun h => absurd ⟨h.1.2.2.1, h.1.2.2.2⟩ h2⟩
  · rw [if_neg h1]
    exact ⟨fun h => (by cases h), fun h => absurd ⟨h.1.1, h.1.2.1⟩ h1⟩

theorem readAt_ub (img : Pyr.Img ℝ) (pos : V2) (e : Fault) (h : readAt img pos = .error e) : e = .ub := by
  unfold readAt Pyr.Img.read at h
  split at h
  · split at h
    · cases h
    · cases h; rfl
  · cases h; rfl

/-- The residual block of an offset. -/
noncomputable def blk (c : Cam.Cam) (s : Settings) (base : Kf) (k i r : Nat) (p d : V2) : RBlock :=
  ⟨k, i, r, (Cam.unmap c (p + d)).normalized, base.interp (p + d).y (p + d).x,
    s.gradWeightingC / Real.sqrt (s.gradWeightingC ^ 2 + gradAt base (p + d) ^ 2)⟩

theorem patternBlocks_iff (c : Cam.Cam) (s : Settings) (base : Kf) (k i r : Nat) (p : V2) (ds : List V2) (bs : List RBlock) :
    patternBlocks c s base k i r p ds = .ok bs ↔ (∀ d ∈ ds, InPicture base (p + d)) ∧ bs = ds.map (blk c s base k i r p) := by
  induction ds generalizing bs with
  | nil =>
    simp only [patternBlocks]
    constructor
    · intro h; cases h; exact ⟨fun d h => by simp at h, rfl⟩
    · rintro ⟨-, rfl⟩; rfl
  | cons d ds ih =>
    simp only [patternBlocks]
    constructor
    · intro h
      cases h1 : readAt base.gradNorm (p + d) with
      | error e => simp only [h1, bind, Except.bind] at h; cases h
      | ok v =>
      cases h2 : patternBlocks c s base k i r p ds with
      | error e => simp only [h1, h2, bind, Except.bind] at h; cases h
      | ok xs =>
      simp only [h1, h2, bind, Except.bind] at h
      cases h
      obtain ⟨i1, i2⟩ := (ih xs).1 h2
      obtain ⟨r1, r2⟩ := (readAt_iff _ _ _).1 h1
      refine ⟨?_, ?_⟩
      · intro e he
        rcases List.mem_cons.1 he with rfl | he
        · exact r1
        · exact i1 e he
      · rw [List.map_cons, ← i2, r2]; rfl
    · rintro ⟨h1, rfl⟩
      have h2 := (readAt_iff base.gradNorm (p + d) _).2 ⟨h1 d List.mem_cons_self, rfl⟩
      have h3 := (ih _).2 ⟨fun e he => h1 e (List.mem_cons_of_mem _ he), rfl⟩
      simp only [h2, h3, bind, Except.bind]
      rfl

theorem patternBlocks_ub (c : Cam.Cam) (s : Settings) (base : Kf) (k i r : Nat) (p : V2) (ds : List V2) (e : Fault)
    (h : patternBlocks c s base k i r p ds = .error e) : e = .ub := by
  induction ds with
  | nil => cases h
  | cons d ds ih =>
    unfold patternBlocks at h
    cases h1 : readAt base.gradNorm (p + d) with
    | error e' => simp only [h1, bind, Except.bind] at h; cases h; exact readAt_ub _ _ _ h1
    | ok v =>
    cases h2 : patternBlocks c s base k i r p ds with
    | error e' => simp only [h1, h2, bind, Except.bind] at h; cases h; exact ih h2
    | ok xs => simp only [h1, h2, bind, Except.bind] at h; cases h

theorem reproject_eq (c : Cam.Cam) (base ref : Kf) (pix : V2) (depth : ℝ) :
    reproject c base.thisToWorld ref.thisToWorld (Cam.unmap c pix).normalized depth = seenIn c base ref pix depth := by
  unfold reproject seenIn inWorld
  rw [Base.act_compose]

theorem isOOB_iff (c : Cam.Cam) (s : Settings) (base ref : Kf) (p : V2) (l : ℝ) :
    isOOB c s base.thisToWorld ref.thisToWorld p l ↔ ¬ Cam.isOnImage c (seenIn c base ref p (Real.exp (-l))) s.height := by
  unfold isOOB
  rw [reproject_eq]

open Classical in
/-- The observations of a point in one other keyframe. -/
noncomputable def obsRef (c : Cam.Cam) (s : Settings) (base : Kf) (k i : Nat) (p : V2) (l : ℝ) (r : Nat) (ref : Kf) : List Obs :=
  if r ≠ k ∧ Cam.isOnImage c (seenIn c base ref p (Real.exp (-l))) s.height then s.pattern.map fun d => ⟨k, i, r, d⟩ else []

/-- The observations of a point. -/
noncomputable def obsPoint (c : Cam.Cam) (s : Settings) (kfs : List Kf) (base : Kf) (k : Nat) (i : Nat) (op : OptPoint) : List Obs :=
  op.logInvDepth.elim [] fun l => (kfs.zipIdx 0).flatMap fun x => obsRef c s base k i op.p l x.2 x.1

/-- The observations of the points of a keyframe. -/
noncomputable def obsFrame (c : Cam.Cam) (s : Settings) (kfs : List Kf) (k : Nat) (base : Kf) : List Obs :=
  (base.points.zipIdx 0).flatMap fun y => obsPoint c s kfs base k y.2 y.1

/-- All observations, in the order of the code. -/
noncomputable def observations (c : Cam.Cam) (s : Settings) (kfs : List Kf) : List Obs :=
  (kfs.zipIdx 0).flatMap fun z => obsFrame c s kfs z.2 z.1

theorem mem_obsRef {c : Cam.Cam} {s : Settings} {base : Kf} {k i : Nat} {p : V2} {l : ℝ} {r : Nat} {ref : Kf} {q : Obs} :
    q ∈ obsRef c s base k i p l r ref ↔ q.base = k ∧ q.idx = i ∧ q.ref = r ∧ q.off ∈ s.pattern ∧ r ≠ k ∧
      Cam.isOnImage c (seenIn c base ref p (Real.exp (-l))) s.height := by
  unfold obsRef
  by_cases h : r ≠ k ∧ Cam.isOnImage c (seenIn c base ref p (Real.exp (-l))) s.height
  · rw [if_pos h, List.mem_map]
    constructor
    · rintro ⟨d, hd, rfl⟩; exact ⟨rfl, rfl, rfl, hd, h⟩
    · rintro ⟨rfl, rfl, rfl, h4, -⟩; exact ⟨q.off, h4, rfl⟩
  · rw [if_neg h]
    exact ⟨fun h => by simp at h, fun h' => absurd h'.2.2.2.2 h⟩

theorem mem_obsPoint {c : Cam.Cam} {s : Settings} {kfs : List Kf} {base : Kf} {k i : Nat} {op : OptPoint} {q : Obs} :
    q ∈ obsPoint c s kfs base k i op ↔ q.base = k ∧ q.idx = i ∧ ∃ ref l, kfs[q.ref]? = some ref ∧ op.logInvDepth = some l ∧
      q.off ∈ s.pattern ∧ q.ref ≠ k ∧ Cam.isOnImage c (seenIn c base ref op.p (Real.exp (-l))) s.height := by
  unfold obsPoint
  cases hl : op.logInvDepth with
  | none => simp
  | some l =>
    simp only [Option.elim_some, List.mem_flatMap, mem_zipIdx_iff, Prod.exists]
    constructor
    · rintro ⟨ref, r, h1, h2⟩
      obtain ⟨a1, a2, a3, a4, a5, a6⟩ := mem_obsRef.1 h2
      subst a3
      exact ⟨a1, a2, ref, l, h1, rfl, a4, a5, a6⟩
    · rintro ⟨a1, a2, ref, l', h1, h2, a4, a5, a6⟩
      cases h2
      exact ⟨ref, q.ref, h1, mem_obsRef.2 ⟨a1, a2, rfl, a4, a5, a6⟩⟩

theorem mem_obsFrame {c : Cam.Cam} {s : Settings} {kfs : List Kf} {base : Kf} {k : Nat} {q : Obs} :
    q ∈ obsFrame c s kfs k base ↔ q.base = k ∧ ∃ op ref l, base.points[q.idx]? = some op ∧ kfs[q.ref]? = some ref ∧
      op.logInvDepth = some l ∧ q.off ∈ s.pattern ∧ q.ref ≠ k ∧
      Cam.isOnImage c (seenIn c base ref op.p (Real.exp (-l))) s.height := by
  unfold obsFrame
  simp only [List.mem_flatMap, mem_zipIdx_iff, Prod.exists]
  constructor
  · rintro ⟨op, i, h1, h2⟩
    obtain ⟨a1, a2, ref, l, a3⟩ := mem_obsPoint.1 h2
    subst a2
    exact ⟨a1, op, ref, l, h1, a3⟩
  · rintro ⟨a1, op, ref, l, h1, a3⟩
    exact ⟨op, q.idx, h1, mem_obsPoint.2 ⟨a1, rfl, ref, l, a3⟩⟩

theorem mem_observations {c : Cam.Cam} {s : Settings} {kfs : List Kf} {q : Obs} : q ∈ observations c s kfs ↔ IsObs c s kfs q := by
  unfold observations IsObs
  simp only [List.mem_flatMap, mem_zipIdx_iff, Prod.exists]
  constructor
  · rintro ⟨base, k, h1, h2⟩
    obtain ⟨a1, op, ref, l, a2, a3, a4, a5, a6, a7⟩ := mem_obsFrame.1 h2
    subst a1
    exact ⟨base, ref, op, l, h1, a3, a2, a4, a6, a5, a7⟩
  · rintro ⟨base, ref, op, l, h1, a3, a2, a4, a6, a5, a7⟩
    exact ⟨base, q.base, h1, mem_obsFrame.2 ⟨rfl, op, ref, l, a2, a3, a4, a5, a6, a7⟩⟩

theorem nodup_zip {α β : Type} (l : List α) (f : α × Nat → List β) (key : β → Nat) (hk : ∀ x b, b ∈ f x → key b = x.2)
    (hf : ∀ x ∈ l.zipIdx 0, (f x).Nodup) : ((l.zipIdx 0).flatMap f).Nodup := by
  rw [List.nodup_flatMap]
  refine ⟨hf, ?_⟩
  have h : ((l.zipIdx 0).map Prod.snd).Nodup := by
    rw [List.zipIdx_map_snd]; exact List.nodup_range'
  have h' : (l.zipIdx 0).Pairwise fun a b => a.2 ≠ b.2 := by
    rw [List.Nodup, List.pairwise_map] at h; exact h
  refine h'.imp ?_
  intro a b hab
  show List.Disjoint (f a) (f b)
  intro x hx hy
  exact hab ((hk a x hx).symm.trans (hk b x hy))

theorem nodup_observations {c : Cam.Cam} {s : Settings} {kfs : List Kf} (h : s.pattern.Nodup) : (observations c s kfs).Nodup := by
  unfold observations
  refine nodup_zip kfs _ Obs.base (fun x b hb => (mem_obsFrame.1 hb).1) ?_
  intro z _
  unfold obsFrame
  refine nodup_zip _ _ Obs.idx (fun x b hb => (mem_obsPoint.1 hb).2.1) ?_
  intro y _
  unfold obsPoint
  cases y.1.logInvDepth with
  | none => simp
  | some l =>
    refine nodup_zip _ _ Obs.ref (fun x b hb => (mem_obsRef.1 hb).2.2.1) ?_
    intro x _
    unfold obsRef
    split
    · refine h.map ?_
      intro a b hab
      simpa using hab
    · simp

theorem lists_observations (c : Cam.Cam) (s : Settings) (kfs : List Kf) : ListsObs c s kfs (observations c s kfs) :=
  ⟨fun _ => mem_observations, nodup_observations⟩

/-- The residual block of an observation. -/
noncomputable def toBlock (c : Cam.Cam) (s : Settings) (kfs : List Kf) (q : Obs) : RBlock :=
  (kfs[q.base]?.bind fun base => base.points[q.idx]?.map fun op => blk c s base q.base q.idx q.ref op.p q.off).getD
    ⟨0, 0, 0, 0, 0, 0⟩

theorem refStep_ok {c : Cam.Cam} {s : Settings} {base : Kf} {k i : Nat} {p : V2} {l : ℝ} {r : Nat} {ref : Kf} {x : List RBlock} :
    refStep c s base k i p l r ref = .ok x ↔ (∀ q ∈ obsRef c s base k i p l r ref, InPicture base (p + q.off)) ∧
      x = (obsRef c s base k i p l r ref).map fun q => blk c s base k i r p q.off := by
  unfold refStep
  rw [isOOB_iff]
  by_cases h : r = k ∨ ¬ Cam.isOnImage c (seenIn c base ref p (Real.exp (-l))) s.height
  · have e : obsRef c s base k i p l r ref = [] := by unfold obsRef; rw [if_neg (by tauto)]
    rw [if_pos h, e]
    constructor
    · intro h; cases h; exact ⟨fun q h => by simp at h, rfl⟩
    · rintro ⟨-, rfl⟩; rfl
  · have e : obsRef c s base k i p l r ref = s.pattern.map fun d => ⟨k, i, r, d⟩ := by unfold obsRef; rw [if_pos (by tauto)]
    rw [if_neg h, e, patternBlocks_iff]
    simp only [List.mem_map, forall_exists_index, and_imp, forall_apply_eq_imp_iff₂, List.map_map]
    rfl

theorem refStep_ub {c : Cam.Cam} {s : Settings} {base : Kf} {k i : Nat} {p : V2} {l : ℝ} {r : Nat} {ref : Kf} {e : Fault}
    (h : refStep c s base k i p l r ref = .error e) : e = .ub := by
  unfold refStep at h
  split at h
  · cases h
  · exact patternBlocks_ub _ _ _ _ _ _ _ _ _ h

/-- The residual blocks of a point in one other keyframe. -/
noncomputable def refBlks (c : Cam.Cam) (s : Settings) (base : Kf) (k i : Nat) (p : V2) (l : ℝ) (r : Nat) (ref : Kf) : List RBlock :=
  (obsRef c s base k i p l r ref).map fun q => blk c s base k i r p q.off

theorem pointStep_ok {c : Cam.Cam} {s : Settings} {kfs : List Kf} {k : Nat} {base : Kf} {i : Nat} {op : OptPoint} {x : List RBlock} :
    pointStep c s kfs k base i op = .ok x ↔ (∀ q ∈ obsPoint c s kfs base k i op, InPicture base (op.p + q.off)) ∧
      x = (obsPoint c s kfs base k i op).map fun q => blk c s base k i q.ref op.p q.off := by
  unfold pointStep
  have e : ∀ l, op.logInvDepth = some l →
      obsPoint c s kfs base k i op = (kfs.zipIdx 0).flatMap fun x => obsRef c s base k i op.p l x.2 x.1 := by
    intro l hl; unfold obsPoint; rw [hl]; rfl
  cases hl : op.logInvDepth with
  | none =>
    have e : obsPoint c s kfs base k i op = [] := by unfold obsPoint; rw [hl]; rfl
    rw [e]
    constructor
    · intro h; cases h; exact ⟨fun q h => by simp at h, rfl⟩
    · rintro ⟨-, rfl⟩; rfl
  | some l =>
    simp only
    have hc := collectFrom_iff (refStep c s base k i op.p l) (refBlks c s base k i op.p l) 0 kfs
      (fun j a x hx => (refStep_ok.1 hx).2) x
    rw [e l hl, hc]
    unfold refBlks
    rw [List.map_flatMap]
    refine and_congr ?_ ?_
    · constructor
      · intro h q hq
        obtain ⟨⟨ref, r⟩, hx, hq⟩ := List.mem_flatMap.1 hq
        rw [mem_zipIdx_iff] at hx
        obtain ⟨y, hy⟩ := h r ref hx
        rw [Nat.zero_add] at hy
        exact (refStep_ok.1 hy).1 q hq
      · intro h r ref hr
        rw [Nat.zero_add]
        refine ⟨_, refStep_ok.2 ⟨?_, rfl⟩⟩
        intro q hq
        exact h q (List.mem_flatMap.2 ⟨(ref, r), (mem_zipIdx_iff _ _).2 hr, hq⟩)
    · have : (kfs.zipIdx 0).flatMap (fun x => (obsRef c s base k i op.p l x.2 x.1).map fun q => blk c s base k i x.2 op.p q.off) =
          (kfs.zipIdx 0).flatMap (fun x => (obsRef c s base k i op.p l x.2 x.1).map fun q => blk c s base k i q.ref op.p q.off) := by
        refine List.flatMap_congr fun x _ => ?_
        refine List.map_congr_left fun q hq => ?_
        rw [(mem_obsRef.1 hq).2.2.1]
      rw [this]

theorem pointStep_ub {c : Cam.Cam} {s : Settings} {kfs : List Kf} {k : Nat} {base : Kf} {i : Nat} {op : OptPoint} {e : Fault}
    (h : pointStep c s kfs k base i op = .error e) : e = .ub := by
  unfold pointStep at h
  split at h
  · cases h
  · exact collectFrom_ub _ _ _ (fun _ _ _ h => refStep_ub h) _ h

theorem frame_ok {c : Cam.Cam} {s : Settings} {kfs : List Kf} {k : Nat} {base : Kf} {x : List RBlock} :
    collectFrom (pointStep c s kfs k base) 0 base.points = .ok x ↔
      (∀ q ∈ obsFrame c s kfs k base, ∀ op, base.points[q.idx]? = some op → InPicture base (op.p + q.off)) ∧
      x = (obsFrame c s kfs k base).map fun q =>
        (base.points[q.idx]?.map fun op => blk c s base k q.idx q.ref op.p q.off).getD ⟨0, 0, 0, 0, 0, 0⟩ := by
  rw [collectFrom_iff _ (fun i op => (obsPoint c s kfs base k i op).map fun q => blk c s base k i q.ref op.p q.off) 0 base.points
    (fun j a x hx => (pointStep_ok.1 hx).2)]
  unfold obsFrame
  rw [List.map_flatMap]
  refine and_congr ?_ ?_
  · constructor
    · intro h q hq op hop
      obtain ⟨⟨op', i⟩, hx, hq⟩ := List.mem_flatMap.1 hq
      rw [mem_zipIdx_iff] at hx
      have hi := (mem_obsPoint.1 hq).2.1
      simp only at hx hi
      rw [hi, hx] at hop
      cases hop
      obtain ⟨y, hy⟩ := h i op hx
      rw [Nat.zero_add] at hy
      exact (pointStep_ok.1 hy).1 q hq
    · intro h i op hop
      rw [Nat.zero_add]
      refine ⟨_, pointStep_ok.2 ⟨?_, rfl⟩⟩
      intro q hq
      refine h q (List.mem_flatMap.2 ⟨(op, i), (mem_zipIdx_iff _ _).2 hop, hq⟩) op ?_
      rw [(mem_obsPoint.1 hq).2.1]; exact hop
  · have : (base.points.zipIdx 0).flatMap (fun y => (obsPoint c s kfs base k y.2 y.1).map fun q => blk c s base k y.2 q.ref y.1.p q.off) =
        (base.points.zipIdx 0).flatMap (fun y => (obsPoint c s kfs base k y.2 y.1).map fun q =>
          (base.points[q.idx]?.map fun op => blk c s base k q.idx q.ref op.p q.off).getD ⟨0, 0, 0, 0, 0, 0⟩) := by
      refine List.flatMap_congr fun y hy => ?_
      refine List.map_congr_left fun q hq => ?_
      rw [(mem_obsPoint.1 hq).2.1, (mem_zipIdx_iff _ _).1 hy]
      rfl
    rw [this]

/-- The residual blocks are those of the observations, and they can be built if the pixels of the observations are in the picture. -/
theorem allBlocks_ok {c : Cam.Cam} {s : Settings} {kfs : List Kf} {bs : List RBlock} :
    allBlocks c s kfs = .ok bs ↔
      (∀ q base op, IsObs c s kfs q → kfs[q.base]? = some base → base.points[q.idx]? = some op → InPicture base (op.p + q.off)) ∧
      bs = (observations c s kfs).map (toBlock c s kfs) := by
  unfold allBlocks
  rw [collectFrom_iff _ (fun k base => (obsFrame c s kfs k base).map fun q =>
        (base.points[q.idx]?.map fun op => blk c s base k q.idx q.ref op.p q.off).getD ⟨0, 0, 0, 0, 0, 0⟩) 0 kfs
    (fun j a x hx => (frame_ok.1 hx).2)]
  refine and_congr ?_ ?_
  · constructor
    · intro h q base op hq hb hop
      obtain ⟨y, hy⟩ := h q.base base hb
      rw [Nat.zero_add] at hy
      refine (frame_ok.1 hy).1 q ?_ op hop
      obtain ⟨⟨base', k⟩, hx, hq⟩ := List.mem_flatMap.1 (mem_observations.2 hq)
      rw [mem_zipIdx_iff] at hx
      have hk := (mem_obsFrame.1 hq).1
      simp only at hx hk hq
      subst hk
      rw [hx] at hb; cases hb
      exact hq
    · intro h k base hb
      rw [Nat.zero_add]
      refine ⟨_, frame_ok.2 ⟨?_, rfl⟩⟩
      intro q hq op hop
      have hk := (mem_obsFrame.1 hq).1
      refine h q base op (mem_observations.1 (List.mem_flatMap.2 ⟨(base, k), (mem_zipIdx_iff _ _).2 hb, hq⟩)) ?_ hop
      rw [hk]; exact hb
  · unfold observations
    rw [List.map_flatMap]
    have : (kfs.zipIdx 0).flatMap (fun z => (obsFrame c s kfs z.2 z.1).map fun q =>
          (z.1.points[q.idx]?.map fun op => blk c s z.1 z.2 q.idx q.ref op.p q.off).getD ⟨0, 0, 0, 0, 0, 0⟩) =
        (kfs.zipIdx 0).flatMap (fun z => (obsFrame c s kfs z.2 z.1).map (toBlock c s kfs)) := by
      refine List.flatMap_congr fun z hz => ?_
      refine List.map_congr_left fun q hq => ?_
      unfold toBlock
      rw [(mem_obsFrame.1 hq).1, (mem_zipIdx_iff _ _).1 hz]
      rfl
    rw [this]

theorem allBlocks_ub {c : Cam.Cam} {s : Settings} {kfs : List Kf} {e : Fault} (h : allBlocks c s kfs = .error e) : e = .ub :=
  collectFrom_ub _ _ _ (fun _ _ _ h => collectFrom_ub _ _ _ (fun _ _ _ h => pointStep_ub h) _ h) _ h

/-- The residual of the block of an observation is the brightness error. -/
theorem residual_eq (c : Cam.Cam) (s : Settings) (base base' ref : Kf) (k i r : Nat) (p d : V2) (l : ℝ) (hi : base'.interp = base.interp) :
    residual c (blk c s base k i r p d) ref.interp l base'.thisToWorld ref.thisToWorld base'.light ref.light =
      brightnessError c base' ref (p + d) (Real.exp (-l)) := by
  unfold residual blk brightnessError lightResidual normalizeMultiplier AffLight.apply
  simp only
  rw [reproject_eq, hi, Real.exp_zero, Real.exp_sub]
  have := Real.exp_ne_zero ref.light.a
  field_simp

end Mdso.BA
