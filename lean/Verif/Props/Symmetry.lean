import Verif.Spec.Symmetry
import Verif.Props.BaseProjection
import Verif.Props.CameraModel
import Verif.Props.BundleDemo
import Verif.Lemmas.Matrix3

/-!
# The results do not depend on the choice of coordinates, unit of length and brightness: C139
-/

set_option autoImplicit false

namespace Mdso.Sym

open Mdso.Geom Mdso.Light Mdso.BA Mdso.BA.Spec

/-! ## Vectors -/

theorem mulVec_add (r : M3) (a b : V3) : r.mulVec (a + b) = r.mulVec a + r.mulVec b := by
  unfold M3.mulVec
  ext <;> simp [V3.dot] <;> ring

theorem mulVec_sub (r : M3) (a b : V3) : r.mulVec (a - b) = r.mulVec a - r.mulVec b := by
  unfold M3.mulVec
  ext <;> simp [V3.dot] <;> ring

theorem mulVec_smul (r : M3) (s : ℝ) (a : V3) : r.mulVec (s • a) = s • r.mulVec a := by
  unfold M3.mulVec
  ext <;> simp [V3.dot] <;> ring

theorem transpose_mul (a b : M3) (v : V3) : (a.mul b).transpose.mulVec v = b.transpose.mulVec (a.transpose.mulVec v) := by
  unfold M3.mulVec M3.mul M3.transpose
  ext <;> simp [V3.dot] <;> ring

theorem inverse_act (m : Motion3) (x : V3) : (Base.inverse m).act x = m.rot.transpose.mulVec (x - m.t) := by
  rw [mulVec_sub]
  unfold Base.inverse Motion3.act
  ext <;> simp <;> ring

/-- A frame described anew sees a point described anew where it was, in the new unit of length. -/
theorem seen_change {S : Change} (h : S.Proper) (m : Motion3) (x : V3) :
    (Base.inverse (S.pose m)).act (S.act x) = S.scale • (Base.inverse m).act x := by
  rw [inverse_act, inverse_act]
  have e : S.act x - (S.pose m).t = S.scale • S.rot.mulVec (x - m.t) := by
    rw [mulVec_sub]
    unfold Change.pose Change.act
    ext <;> simp <;> ring
  rw [e]
  show (S.rot.mul m.rot).transpose.mulVec _ = _
  rw [transpose_mul, mulVec_smul, (h.orthogonal _).1, mulVec_smul]

/-- The change of the description of a frame is the one of its points. -/
theorem act_pose (S : Change) (m : Motion3) (x : V3) : (S.pose m).act (S.scale • x) = S.act (m.act x) := by
  unfold Motion3.act Change.pose Change.act
  rw [mulVec_add, M3.mulVec_mul, mulVec_smul, mulVec_smul]
  ext <;> simp <;> ring

theorem exp_depth {S : Change} (h : S.Proper) (l : ℝ) : Real.exp (-(l - Real.log S.scale)) = S.scale * Real.exp (-l) := by
  rw [show -(l - Real.log S.scale) = Real.log S.scale + -l by ring, Real.exp_add, Real.exp_log h.positive]

theorem mul_smul3 (a b : ℝ) (v : V3) : (a * b) • v = a • b • v := by
  ext <;> simp <;> ring

theorem reproject_change {S : Change} (h : S.Proper) (c : Cam.Cam) (b r : Motion3) (dir : V3) (l : ℝ) :
    reproject c (S.pose b) (S.pose r) dir (Real.exp (-(l - Real.log S.scale))) = reproject c b r dir (Real.exp (-l)) := by
  unfold reproject
  rw [Base.act_compose, Base.act_compose, exp_depth h, mul_smul3, act_pose, seen_change h, Cam.C38_direction _ _ _ h.positive]

theorem light_change (S : Change) (lb lr : AffLight) (ib ir : ℝ) :
    lightResidual (S.lightOf lb) (S.lightOf lr) ib ir = lightResidual lb lr ib ir := by
  unfold lightResidual normalizeMultiplier AffLight.apply Change.lightOf
  simp only [Real.exp_zero, one_mul]
  rw [show S.light.a + lb.a - (S.light.a + lr.a) = lb.a - lr.a by ring]
  have e : Real.exp (lb.a - lr.a) * Real.exp (-lb.a) = Real.exp (-lr.a) := by rw [← Real.exp_add]; congr 1; ring
  linear_combination -S.light.b * e

theorem residual_change {S : Change} (h : S.Proper) (c : Cam.Cam) (b : RBlock) (f : Track.Interp) (l : ℝ) (mb mr : Motion3) (lb lr : AffLight) :
    residual c b f (l - Real.log S.scale) (S.pose mb) (S.pose mr) (S.lightOf lb) (S.lightOf lr) = residual c b f l mb mr lb lr := by
  unfold BA.residual
  dsimp only
  rw [reproject_change h, light_change]

/-! ## C139: bundle adjustment -/

/-- The scene described anew is the same scene: the point a pixel shows is the same point in the new coordinates. -/
theorem C139_same_scene {S : Change} (c : Cam.Cam) (k : Kf) (pix : V2) (d : ℝ) :
    inWorld c (S.kf k) pix (S.scale * d) = S.act (inWorld c k pix d) := by
  unfold inWorld
  rw [mul_smul3]
  exact act_pose S _ _

theorem seenIn_change {S : Change} (h : S.Proper) (c : Cam.Cam) (base ref : Kf) (pix : V2) (d : ℝ) :
    seenIn c (S.kf base) (S.kf ref) pix (S.scale * d) = seenIn c base ref pix d := by
  unfold seenIn
  rw [C139_same_scene]
  show Cam.map c ((Base.inverse (S.pose ref.thisToWorld)).act _) = _
  rw [seen_change h, Cam.C38_direction _ _ _ h.positive]

theorem apply_lightOf (S : Change) (l : AffLight) (x : ℝ) : (S.lightOf l).apply x = S.light.apply (l.apply x) := by
  unfold AffLight.apply Change.lightOf
  rw [Real.exp_add]
  have e : Real.exp l.a * Real.exp (-l.a) = 1 := by rw [← Real.exp_add]; simp
  linear_combination Real.exp S.light.a * S.light.b * e

theorem brightness_change {S : Change} (h : S.Proper) (c : Cam.Cam) (base ref : Kf) (pix : V2) (d : ℝ) :
    brightnessError c (S.kf base) (S.kf ref) pix (S.scale * d) = brightnessError c base ref pix d := by
  unfold brightnessError
  rw [seenIn_change h]
  show ((S.lightOf ref.light).apply (ref.interp _ _) - (S.lightOf base.light).apply (base.interp _ _)) / Real.exp (S.light.a + ref.light.a) = _
  rw [apply_lightOf, apply_lightOf]
  unfold AffLight.apply
  rw [Real.exp_add]
  have h1 := Real.exp_pos S.light.a
  have h2 := Real.exp_pos ref.light.a
  field_simp
  ring

theorem kfs_get {S : Change} (kfs : List Kf) (k : Nat) : (kfs.map S.kf)[k]? = kfs[k]?.map S.kf := by simp

theorem points_get {S : Change} (k : Kf) (i : Nat) : (S.kf k).points[i]? = k.points[i]?.map S.point := by simp [Change.kf]

theorem mismatch_change {S : Change} (h : S.Proper) (c : Cam.Cam) (kfs : List Kf) (q : Obs) : mismatch c (kfs.map S.kf) q = mismatch c kfs q := by
  unfold mismatch
  congr 1
  rw [kfs_get, kfs_get]
  cases kfs[q.base]? with
  | none => rfl
  | some base =>
    cases kfs[q.ref]? with
    | none => rfl
    | some ref =>
      simp only [Option.map_some, Option.bind_some, points_get]
      cases base.points[q.idx]? with
      | none => rfl
      | some op =>
        simp only [Option.map_some, Option.bind_some, Change.point, Option.map_map]
        cases op.logInvDepth with
        | none => rfl
        | some l =>
          simp only [Option.map_some, Function.comp]
          rw [exp_depth h, brightness_change h]

theorem weight_change {S : Change} (s : Settings) (kfs : List Kf) (q : Obs) : weightOf s (kfs.map S.kf) q = weightOf s kfs q := by
  unfold weightOf
  congr 1
  rw [kfs_get]
  cases kfs[q.base]? with
  | none => rfl
  | some base =>
    simp only [Option.map_some, Option.bind_some, points_get, Option.map_map]
    cases base.points[q.idx]? with
    | none => rfl
    | some op => rfl

theorem isObs_change {S : Change} (h : S.Proper) (c : Cam.Cam) (s : Settings) (kfs : List Kf) (q : Obs) :
    IsObs c s (kfs.map S.kf) q ↔ IsObs c s kfs q := by
  unfold IsObs
  constructor
  · rintro ⟨b', r', o', l', hb, hr, ho, hl, hne, hoff, hon⟩
    rw [kfs_get, Option.map_eq_some_iff] at hb hr
    obtain ⟨b, hb, rfl⟩ := hb
    obtain ⟨r, hr, rfl⟩ := hr
    rw [points_get, Option.map_eq_some_iff] at ho
    obtain ⟨o, ho, rfl⟩ := ho
    simp only [Change.point, Option.map_eq_some_iff] at hl
    obtain ⟨l, hl, rfl⟩ := hl
    refine ⟨b, r, o, l, hb, hr, ho, hl, hne, hoff, ?_⟩
    rw [exp_depth h] at hon
    rwa [show (S.point o).p = o.p from rfl, seenIn_change h] at hon
  · rintro ⟨b, r, o, l, hb, hr, ho, hl, hne, hoff, hon⟩
    refine ⟨S.kf b, S.kf r, S.point o, l - Real.log S.scale, by rw [kfs_get, hb]; rfl, by rw [kfs_get, hr]; rfl,
      by rw [points_get, ho]; rfl, by simp [Change.point, hl], hne, hoff, ?_⟩
    rw [exp_depth h, show (S.point o).p = o.p from rfl, seenIn_change h]
    exact hon

/-- **C139.** What bundle adjustment minimizes depends neither on the world coordinates nor on the unit of length nor on the common scale of
brightness: the same observations are used, and their photometric error is the same. -/
theorem C139_error {S : Change} (h : S.Proper) (c : Cam.Cam) (s : Settings) (kfs : List Kf) (obs : List Obs) :
    (ListsObs c s (kfs.map S.kf) obs ↔ ListsObs c s kfs obs) ∧
      photometricError c s (kfs.map S.kf) obs = photometricError c s kfs obs := by
  constructor
  · unfold ListsObs
    simp only [isObs_change h]
  · unfold photometricError
    simp only [mismatch_change h, weight_change]

theorem collectFrom_map {α β γ : Type} (g : γ → α) (f : Nat → α → Except Fault (List β)) : ∀ (n : Nat) (l : List γ),
    collectFrom f n (l.map g) = collectFrom (fun i x => f i (g x)) n l
  | _, [] => rfl
  | n, a :: as => by
    simp only [List.map_cons, collectFrom, collectFrom_map g f (n + 1) as]

theorem patternBlocks_change {S : Change} (c : Cam.Cam) (s : Settings) (base : Kf) (k i ref : Nat) (p : V2) : ∀ ds : List V2,
    patternBlocks c s (S.kf base) k i ref p ds = patternBlocks c s base k i ref p ds
  | [] => rfl
  | d :: ds => by
    rw [patternBlocks, patternBlocks, patternBlocks_change c s base k i ref p ds]
    rfl

theorem allBlocks_change {S : Change} (h : S.Proper) (c : Cam.Cam) (s : Settings) (kfs : List Kf) :
    allBlocks c s (kfs.map S.kf) = allBlocks c s kfs := by
  unfold allBlocks
  rw [collectFrom_map]
  congr 1
  funext k base
  show collectFrom _ 0 (base.points.map S.point) = _
  rw [collectFrom_map]
  congr 1
  funext i op
  unfold pointStep Change.point
  cases op.logInvDepth with
  | none => rfl
  | some l =>
    simp only [Option.map_some]
    rw [collectFrom_map]
    congr 1
    funext r ref
    have e : isOOB c s (S.pose base.thisToWorld) (S.pose ref.thisToWorld) op.p (l - Real.log S.scale) =
        isOOB c s base.thisToWorld ref.thisToWorld op.p l := by
      unfold isOOB
      rw [reproject_change h]
    unfold refStep
    rw [patternBlocks_change]
    by_cases hr : r = k ∨ isOOB c s base.thisToWorld ref.thisToWorld op.p l
    · rw [if_pos hr, if_pos (by rw [← e] at hr; exact hr)]
    · rw [if_neg hr, if_neg (by rw [← e] at hr; exact hr)]

theorem insertKf_change {S : Change} (k : Kf) : ∀ l : List Kf, insertKf (S.kf k) (l.map S.kf) = (insertKf k l).map S.kf
  | [] => rfl
  | a :: l => by
    simp only [List.map_cons, insertKf, insertKf_change k l, show (S.kf k).addr = k.addr from rfl, show (S.kf a).addr = a.addr from rfl]
    split
    · rfl
    · split <;> rfl

theorem construct_change {S : Change} (kfs : List Kf) :
    construct (kfs.map S.kf) = ⟨(construct kfs).keyFrames.map S.kf, (construct kfs).firstKeyFrame⟩ := by
  have key : ∀ (l : List Kf) (a : Adjuster), (l.map S.kf).foldl addKeyFrame ⟨a.keyFrames.map S.kf, a.firstKeyFrame⟩ =
      ⟨(l.foldl addKeyFrame a).keyFrames.map S.kf, (l.foldl addKeyFrame a).firstKeyFrame⟩ := by
    intro l
    induction l with
    | nil => intro a; rfl
    | cons k l ih =>
      intro a
      simp only [List.map_cons, List.foldl_cons]
      rw [← ih]
      congr 1
      unfold addKeyFrame
      simp only [insertKf_change]
      rfl
  exact key kfs ⟨[], none⟩

theorem move_change {S : Change} {solve solve' : Solver} (hs : SameSolver S solve solve') {P P' : Problem} (hP : SameProblem S P P') :
    (P.kfs.map S.kf).mapIdx (moveKf (solve' P')) = (P.kfs.mapIdx (moveKf (solve P))).map S.kf := by
  apply List.ext_getElem?
  intro k
  simp only [List.getElem?_mapIdx, List.getElem?_map]
  cases hk : P.kfs[k]? with
  | none => rfl
  | some kf =>
    obtain ⟨e1, e2, e3⟩ := hs P P' hP k kf hk
    simp only [Option.map_some, Option.some.injEq]
    unfold moveKf
    have e4 : (S.kf kf).points.mapIdx (movePoint (solve' P') k) = (kf.points.mapIdx (movePoint (solve P) k)).map S.point := by
      apply List.ext_getElem?
      intro i
      simp only [List.getElem?_mapIdx, List.getElem?_map, points_get]
      cases ho : kf.points[i]? with
      | none => rfl
      | some op =>
        simp only [Option.map_some, Option.some.injEq]
        unfold movePoint Change.point
        cases hl : op.logInvDepth with
        | none => simp only [Option.map_none]
        | some l => simp only [Option.map_some, e3 i op l ho hl]
    rw [e1, e2, e4]
    rfl

theorem values_change {S : Change} (h : S.Proper) (c : Cam.Cam) (kfs : List Kf) (base : Kf) (l : ℝ) (bs : List RBlock) :
    valuesOf c (kfs.map S.kf) (S.kf base) (l - Real.log S.scale) bs = valuesOf c kfs base l bs := by
  unfold valuesOf
  congr 1
  funext b
  rw [kfs_get]
  cases kfs[b.ref]? with
  | none => rfl
  | some ref =>
    simp only [Option.map_some, Option.some.injEq]
    exact residual_change h c b ref.interp l base.thisToWorld ref.thisToWorld base.light ref.light

theorem label_change {S : Change} (h : S.Proper) (c : Cam.Cam) (s : Settings) (kfs : List Kf) (second : Nat) (bs : List RBlock) :
    label c s (kfs.map S.kf) second bs = (label c s kfs second bs).map S.kf := by
  unfold label
  apply List.ext_getElem?
  intro k
  simp only [List.getElem?_mapIdx, List.getElem?_map]
  cases hk : kfs[k]? with
  | none => rfl
  | some kf =>
    simp only [Option.map_some, Option.some.injEq]
    by_cases hs : k = second
    · rw [if_pos hs, if_pos hs]
      have e4 : (S.kf kf).points.mapIdx (labelPoint c s (kfs.map S.kf) k (S.kf kf) bs) = (kf.points.mapIdx (labelPoint c s kfs k kf bs)).map S.point := by
        apply List.ext_getElem?
        intro i
        simp only [List.getElem?_mapIdx, List.getElem?_map, points_get]
        cases ho : kf.points[i]? with
        | none => rfl
        | some op =>
          simp only [Option.map_some, Option.some.injEq]
          have e5 : pointValues c (kfs.map S.kf) k (S.kf kf) bs i (S.point op) = pointValues c kfs k kf bs i op := by
            unfold pointValues Change.point
            cases op.logInvDepth with
            | none => rfl
            | some l =>
              simp only [Option.map_some, Option.elim]
              exact values_change h c kfs kf l _
          unfold labelPoint
          rw [e5]
          rfl
      rw [e4]
      rfl
    · rw [if_neg hs, if_neg hs]

theorem sub_act (S : Change) (a b : V3) : S.act a - S.act b = S.scale • S.rot.mulVec (a - b) := by
  rw [mulVec_sub]
  unfold Change.act
  ext <;> simp <;> ring

theorem norm_mulVec {r : M3} (h : Base.Spec.Orthogonal r) (v : V3) : (r.mulVec v).norm = v.norm := by
  have e : (r.mulVec v).sqNorm = v.sqNorm := by
    have h1 : (r.mulVec v).sqNorm = (r.mulVec v).dot (r.mulVec v) := rfl
    have h2 : v.sqNorm = v.dot v := rfl
    rw [h1, h2, M3.dot_mulVec, (h v).1]
  unfold V3.norm
  rw [e]

theorem mk_change {S : Change} (h : S.Proper) (f s : V3) :
    (∃ sp sp', Gauge.mk' f (s - f).norm s = .ok sp ∧ Gauge.mk' (S.act f) (S.act s - S.act f).norm (S.act s) = .ok sp' ∧
      sp'.center = S.act sp.center ∧ sp'.radius = S.scale * sp.radius) ∨
      Gauge.mk' f (s - f).norm s = .error .abort ∧ Gauge.mk' (S.act f) (S.act s - S.act f).norm (S.act s) = .error .abort := by
  have key : ∀ a b : V3, (b - a).norm ≠ 0 → ∃ sp, Gauge.mk' a (b - a).norm b = .ok sp ∧ sp.center = a ∧ sp.radius = (b - a).norm := by
    intro a b hn
    unfold Gauge.mk'
    dsimp only
    rw [if_pos ⟨hn, by rw [sub_self, zero_div]; norm_num⟩]
    exact ⟨_, rfl, rfl, rfl⟩
  have key0 : ∀ a b : V3, (b - a).norm = 0 → Gauge.mk' a (b - a).norm b = .error .abort := by
    intro a b hn
    unfold Gauge.mk'
    dsimp only
    rw [if_neg (fun hh => hh.1 hn)]
  have e : (S.act s - S.act f).norm = S.scale * (s - f).norm := by
    rw [sub_act, V3.norm_smul h.positive.le, norm_mulVec h.orthogonal]
  by_cases hn : (s - f).norm = 0
  · exact Or.inr ⟨key0 f s hn, key0 _ _ (by rw [e, hn, mul_zero])⟩
  · obtain ⟨sp, m1, c1, r1⟩ := key f s hn
    obtain ⟨sp', m2, c2, r2⟩ := key (S.act f) (S.act s) (by rw [e]; exact mul_ne_zero h.positive.ne' hn)
    exact Or.inl ⟨sp, sp', m1, m2, by rw [c1, c2], by rw [r1, r2, e]⟩

theorem decl_change {S : Change} {sp sp' : Gauge.SPlus} (hc : sp'.center = S.act sp.center) (hr : sp'.radius = S.scale * sp.radius)
    (s : Gauge.Settings) (n first second k : Nat) : SameKind S (Gauge.decl s n first second sp k).t (Gauge.decl s n first second sp' k).t ∧
      (Gauge.decl s n first second sp' k).qConst = (Gauge.decl s n first second sp k).qConst ∧
      (Gauge.decl s n first second sp' k).lConst = (Gauge.decl s n first second sp k).lConst := by
  unfold Gauge.decl
  dsimp only
  by_cases h3 : s.fixedMotionOnFirstAdjustent ∧ n = 2 ∧ k = second
  · rw [if_pos h3, if_pos h3]
    exact ⟨trivial, rfl, rfl⟩
  · rw [if_neg h3, if_neg h3]
    by_cases h2 : k = second
    · rw [if_pos h2, if_pos h2]
      exact ⟨⟨hc, hr⟩, rfl, rfl⟩
    · rw [if_neg h2, if_neg h2]
      by_cases h1 : k = first
      · rw [if_pos h1]
        exact ⟨trivial, rfl, rfl⟩
      · rw [if_neg h1]
        exact ⟨trivial, rfl, rfl⟩

theorem problem_change {S : Change} {sp sp' : Gauge.SPlus} (hc : sp'.center = S.act sp.center) (hr : sp'.radius = S.scale * sp.radius)
    (c : Cam.Cam) (s : Settings) (l : List Kf) (first : Nat) (bs : List RBlock) :
    SameProblem S (problemOf c s l first sp bs) (problemOf c s (l.map S.kf) first sp' bs) := by
  have hd := decl_change hc hr s.gauge l.length first (secondIndex first)
  have e : (l.map S.kf).length = l.length := List.length_map ..
  refine ⟨rfl, rfl, rfl, rfl, fun k => ?_, fun k => ?_, fun k => ?_, ⟨rfl, rfl⟩, ⟨rfl, rfl⟩, rfl, rfl⟩
  · simp only [problemOf, e]
    exact (hd k).1
  · simp only [problemOf, e]
    exact (hd k).2.1
  · simp only [problemOf, e]
    exact (hd k).2.2

/-- **C139, the code.** Bundle adjustment of the keyframes described anew gives the result described anew, if Ceres treats the two problems alike:
poses, light transforms, depths and which points are marked. It ends in an error in one description if and only if it does in the other. -/
theorem C139_adjust_partial {S : Change} (h : S.Proper) {solve solve' : Solver} (hs : SameSolver S solve solve') (c : Cam.Cam) (s : Settings) (kfs : List Kf) :
    adjust c s solve' (construct (kfs.map S.kf)) = (adjust c s solve (construct kfs)).map fun out => out.map S.kf := by
  rw [construct_change]
  obtain ⟨a, ha⟩ : ∃ a, a = construct kfs := ⟨_, rfl⟩
  rw [← ha]
  unfold adjust
  cases a.firstKeyFrame with
  | none => rfl
  | some addr =>
    dsimp only
    have e0 : (a.keyFrames.map S.kf).findIdx (fun kf => kf.addr == addr) = a.keyFrames.findIdx fun kf => kf.addr == addr := by
      rw [List.findIdx_map]
      rfl
    rw [e0]
    generalize a.keyFrames.findIdx (fun kf => kf.addr == addr) = first
    generalize a.keyFrames = l
    unfold adjustAt
    have hat : ∀ i, at' (l.map S.kf) i = (at' l i).map S.kf := by
      intro i
      unfold at'
      rw [kfs_get]
      cases l[i]? <;> rfl
    rw [hat, hat]
    cases h1 : at' l first with
    | error e => rfl
    | ok fk =>
      cases h2 : at' l (secondIndex first) with
      | error e => rfl
      | ok sk =>
        simp only [Except.map, bind, Except.bind]
        rw [allBlocks_change h]
        rw [show (S.kf fk).thisToWorld.t = S.act fk.thisToWorld.t from rfl, show (S.kf sk).thisToWorld.t = S.act sk.thisToWorld.t from rfl]
        rcases mk_change h fk.thisToWorld.t sk.thisToWorld.t with ⟨sp, sp', m1, m2, hc, hr⟩ | ⟨m1, m2⟩
        · rw [m1, m2]
          dsimp only
          cases allBlocks c s l with
          | error e => rfl
          | ok bs =>
            dsimp only
            congr 1
            rw [← label_change h]
            congr 1
            exact move_change hs (problem_change hc hr c s l first bs)
        · rw [m1, m2]

/-- **C139, the cost.** The cost of values is the cost of the values described anew. So if no bound of a parameter is met, the same scene is the best one
in both descriptions. -/
theorem C139_cost {S : Change} (h : S.Proper) {P P' : Problem} (hP : SameProblem S P P') (v : Values) :
    cost P' (S.values v) = cost P v := by
  unfold cost
  rw [hP.blocks, hP.huber, hP.cam, hP.kfs]
  congr 2
  apply List.map_congr_left
  intro b _
  congr 3
  rw [kfs_get]
  cases P.kfs[b.ref]? with
  | none => rfl
  | some ref =>
    simp only [Option.map_some, Option.getD_some]
    exact residual_change h P.cam b ref.interp _ _ _ _ _

/-- A solver that moves nothing treats the two problems alike. -/
theorem idle_same (S : Change) : SameSolver S start start := by
  intro P P' hP k kf hk
  have e : P'.kfs[k]? = some (S.kf kf) := by rw [hP.kfs, kfs_get, hk]; rfl
  refine ⟨?_, ?_, ?_⟩
  · simp only [start, e, hk, Option.map_some, Option.getD_some]
    rfl
  · simp only [start, e, hk, Option.map_some, Option.getD_some]
    rfl
  · intro i op l ho hl
    simp only [start, e, hk, Option.bind_some, points_get, ho, Option.map_some, Change.point, hl, Option.getD_some]

/-- A quarter of a turn about the vertical, feet instead of yards, another origin, half the brightness. -/
noncomputable def exChange : Change := ⟨⟨⟨0, 0, 1⟩, ⟨0, 1, 0⟩, ⟨-1, 0, 0⟩⟩, 3, ⟨1, 2, 3⟩, ⟨-Real.log 2, 7⟩⟩

theorem exChange_proper : exChange.Proper := by
  refine ⟨fun v => ⟨?_, ?_⟩, by norm_num [exChange]⟩ <;> (ext <;> simp [exChange, M3.mulVec, M3.transpose, V3.dot])

/-- A change that moves things: the bounds of the settings are not those of the other description. -/
theorem C139_bounds_violated : ∃ (S : Change) (P P' : Problem) (v : Values), S.Proper ∧ SameProblem S P P' ∧ InBounds P v ∧ ¬ InBounds P' (S.values v) := by
  refine ⟨exChange, ⟨exCam, [exKf 0 0 0 [exPoint]], fun _ => ⟨.free, false, false⟩, [], -1, 1, -10, 10, 0, 1, 1⟩,
    ⟨exCam, [exChange.kf (exKf 0 0 0 [exPoint])], fun _ => ⟨.free, false, false⟩, [], -1, 1, -10, 10, 0, 1, 1⟩,
    ⟨fun _ => ⟨exRot, 0⟩, fun _ => ⟨0, 0⟩, fun _ _ => 0⟩, exChange_proper,
    ⟨rfl, rfl, rfl, rfl, fun _ => trivial, fun _ => rfl, fun _ => rfl, ⟨rfl, rfl⟩, ⟨rfl, rfl⟩, rfl, rfl⟩, ⟨?_, ?_⟩, ?_⟩
  · intro k _
    norm_num
  · intro k kf i op l _ _ _
    norm_num
  · intro hb
    have := (hb.2 0 _ 0 (exChange.point exPoint) (0 - Real.log 3) rfl rfl rfl).1
    have h3 : 0 < Real.log 3 := Real.log_pos (by norm_num)
    have e : (exChange.values ⟨fun _ => ⟨exRot, 0⟩, fun _ => ⟨0, 0⟩, fun _ _ => 0⟩).logInvDepth 0 0 = 0 - Real.log 3 := rfl
    rw [e] at this
    simp only at this
    linarith

/-- The hypotheses hold for two keyframes that bundle adjustment accepts. -/
example : ∃ out, adjust exCam exSettings start (construct [exF 200 [exPoint], exG 100 []]) = .ok out ∧
    adjust exCam exSettings start (construct ([exF 200 [exPoint], exG 100 []].map exChange.kf)) = .ok (out.map exChange.kf) := by
  obtain ⟨out, h⟩ := ex_defined start 200 100 [exPoint] [] (by intro op ho; simp at ho; rw [ho]; rfl)
  exact ⟨out, h, by rw [C139_adjust_partial exChange_proper (idle_same _), h]; rfl⟩

end Mdso.Sym
