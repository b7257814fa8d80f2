import Verif.Props.BundleAdjuster
import Verif.Props.CameraModel

/-!
# C97 to C102: where bundle adjustment does not do what it is meant to, and that the theorems apply
-/

set_option autoImplicit false

namespace Mdso.BA

open Mdso.Geom Mdso.Light Mdso.BA.Spec

/-! ### Keyframes of uniform brightness -/

/-- A camera with a picture of 200 by 200 pixels, the axis at its centre. The pixel (198, 100) is mapped to a ray and the ray back to
this pixel. -/
noncomputable def exCam : Cam.Cam :=
  { width := 200
    height := 200
    p0 := 98
    ps := []
    center := ⟨100, 100⟩
    scale := 1
    maxRadius := 100
    minZ := 0
    maxAngle := 1
    m0 := 0
    ms := [98 / Cam.atan2 98 98] }

/-- The identity. -/
def exRot : M3 := ⟨⟨1, 0, 0⟩, ⟨0, 1, 0⟩, ⟨0, 0, 1⟩⟩

/-- A keyframe at `t`, not turned, of brightness `g` everywhere. -/
def exKf (addr : Nat) (t : V3) (g : ℝ) (points : List OptPoint) : Kf :=
  { addr := addr
    thisToWorld := ⟨exRot, t⟩
    light := AffLight.identity
    points := points
    gradNorm := ⟨200, 200, fun _ _ => 0⟩
    interp := fun _ _ => g }

/-- An active point at the centre of the picture. -/
def exPoint : OptPoint := ⟨⟨100, 100⟩, some 0, 1, .active⟩

/-- The settings: a pattern of height two, the default threshold, light transforms are not optimized. -/
noncomputable def exSettings : Settings :=
  { gauge := ⟨false, false, false⟩
    minAffineLightA := -1
    maxAffineLightA := 1
    minAffineLightB := -1
    maxAffineLightB := 1
    depthMin := 1 / 100
    depthMax := 100
    outlierDiff := 12
    gradWeightingC := 50
    pattern := [⟨0, 0⟩, ⟨2, 0⟩]
    height := 2 }

theorem exHeight : patternHeight exSettings.pattern = .ok exSettings.height := by
  unfold exSettings patternHeight infNorm
  norm_num

theorem exAxis (x y z : ℝ) (hx : x = 0) (hy : y = 0) : Cam.map exCam ⟨x, y, z⟩ = ⟨100, 100⟩ := by
  subst hx hy
  unfold Cam.map Cam.normalized2 exCam
  ext <;> simp [sqNorm]

/-- The point at the centre is seen at the centre by everyone on the axis. -/
theorem exSeen (a a' : Nat) (z z' g g' : ℝ) (ps ps' : List OptPoint) :
    seenIn exCam (exKf a ⟨0, 0, z⟩ g ps) (exKf a' ⟨0, 0, z'⟩ g' ps') ⟨100, 100⟩ (Real.exp (-0)) = ⟨100, 100⟩ := by
  have hu : Cam.unmap exCam ⟨100, 100⟩ = ⟨0, 0, 98⟩ := by
    unfold Cam.unmap exCam
    ext <;> simp [Cam.unmapLoop]
  unfold seenIn inWorld
  rw [hu]
  unfold V3.normalized
  rw [if_pos (by norm_num [V3.sqNorm])]
  refine exAxis _ _ _ ?_ ?_ <;>
    simp [Motion3.act, Base.inverse, exKf, exRot, M3.mulVec, M3.transpose, V3.dot]

theorem exOn : Cam.isOnImage exCam ⟨100, 100⟩ 2 := by
  unfold Cam.isOnImage exCam
  norm_num

/-- The brightness errors afterwards, whatever the solver does. -/
theorem exMismatch {c : Cam.Cam} {solve : Solver} (hsolve : IsSolver solve) {added out : List Kf} (hd : Distinct added)
    (h : adjust c exSettings solve (construct added) = .ok out) (bright : Nat → ℝ)
    (hb : ∀ kf ∈ added, kf.light = AffLight.identity ∧ kf.interp = fun _ _ => bright kf.addr) {q : Obs}
    (hq : IsObs c exSettings (construct added).keyFrames q) {base ref : Kf} (h1 : (construct added).keyFrames[q.base]? = some base)
    (h2 : (construct added).keyFrames[q.ref]? = some ref) : mismatch c out q = bright ref.addr - bright base.addr := by
  obtain ⟨hlen, f1, f2⟩ := C97_frame hsolve hd h
  obtain ⟨base', ref', op, l, b1, b2, b3, b4, -⟩ := hq
  rw [h1] at b1; cases b1
  rw [h2] at b2; cases b2
  obtain ⟨l1, -⟩ := List.getElem?_eq_some_iff.1 h1
  obtain ⟨l2, -⟩ := List.getElem?_eq_some_iff.1 h2
  have hb' : out[q.base]? = some (out[q.base]'(by omega)) := List.getElem?_eq_getElem _
  have hr' : out[q.ref]? = some (out[q.ref]'(by omega)) := List.getElem?_eq_getElem _
  obtain ⟨base', hbase'⟩ : ∃ x, x = out[q.base]'(by omega) := ⟨_, rfl⟩
  obtain ⟨ref', href'⟩ : ∃ x, x = out[q.ref]'(by omega) := ⟨_, rfl⟩
  rw [← hbase'] at hb'
  rw [← href'] at hr'
  obtain ⟨-, -, g3, g4, -, g6, -⟩ := f1 q.base base base' ⟨h1, hb'⟩
  obtain ⟨-, -, k3, -, -, k6, -⟩ := f1 q.ref ref ref' ⟨h2, hr'⟩
  obtain ⟨l3, -⟩ := List.getElem?_eq_some_iff.1 b3
  have hi' : base'.points[q.idx]? = some (base'.points[q.idx]'(by omega)) := List.getElem?_eq_getElem _
  obtain ⟨op', hop'⟩ : ∃ x, x = base'.points[q.idx]'(by omega) := ⟨_, rfl⟩
  rw [← hop'] at hi'
  obtain ⟨-, -, p3, -⟩ := f2 q.base q.idx op op' ⟨base, base', ⟨h1, hb'⟩, b3, hi'⟩
  obtain ⟨l', hl'⟩ : ∃ l', op'.logInvDepth = some l' := by
    cases hn : op'.logInvDepth with
    | none => rw [p3.1 hn] at b4; cases b4
    | some l' => exact ⟨l', rfl⟩
  have hm := (construct_spec hd).1
  obtain ⟨c1, c2⟩ := hb base ((hm base).1 (List.mem_of_getElem? h1))
  obtain ⟨c3, c4⟩ := hb ref ((hm ref).1 (List.mem_of_getElem? h2))
  unfold mismatch
  rw [hb', hr', Option.bind_some, Option.bind_some, hi', Option.bind_some, hl', Option.map_some, Option.getD_some]
  unfold brightnessError
  rw [g6 rfl, k6 rfl, g3, k3, c1, c2, c3, c4]
  simp [AffLight.apply, AffLight.identity]

/-- A solver that gives up at once. -/
noncomputable def idle : Solver := start

theorem idle_solver : IsSolver idle where
  translation := by
    intro P k kf hk
    have : (idle P).pose k = kf.thisToWorld := by unfold idle start; simp only [hk]; rfl
    rw [this]
    cases (P.decl k).t with
    | constant => exact rfl
    | free => exact trivial
    | sphere p => exact ⟨[], rfl⟩
  rotation_constant := by intro P k kf hk _; unfold idle start; simp only [hk]; rfl
  rotation := by intro P k kf hk ho; unfold idle start; simp only [hk]; exact ho
  light_constant := by intro P k kf hk _; unfold idle start; simp only [hk]; rfl
  bounds := fun _ => Or.inl rfl
  descent := fun _ _ => le_refl _

/-- Bundle adjustment of such keyframes with points at the centre is defined. -/
theorem exDefined (solve : Solver) {added : List Kf} (hd : Distinct added) (h2 : 2 ≤ added.length)
    (hne : ∀ f g, f ∈ added → g ∈ added → f.addr ≠ g.addr → f.thisToWorld.t ≠ g.thisToWorld.t)
    (hin : ∀ kf ∈ added, kf.gradNorm = ⟨200, 200, fun _ _ => 0⟩ ∧ ∀ op ∈ kf.points, op.p = ⟨100, 100⟩) :
    ∃ out, adjust exCam exSettings solve (construct added) = .ok out := by
  refine C101_partial exCam solve hd h2 hne exHeight ?_
  intro kf hkf op hop
  obtain ⟨h1, h3⟩ := hin kf hkf
  rw [h1, h3 op hop]
  unfold exSettings
  norm_num

/-- The state of a point in the middle keyframe of the demonstrations: it is an outlier if it is brighter everywhere else by more than
the threshold, and keeps its state if it is darker everywhere else. -/
theorem exState {solve : Solver} (hsolve : IsSolver solve) {added out : List Kf} (hd : Distinct added)
    (h : adjust exCam exSettings solve (construct added) = .ok out) (bright : Nat → ℝ)
    (hb : ∀ kf ∈ added, kf.light = AffLight.identity ∧ kf.interp = fun _ _ => bright kf.addr) {k r i : Nat} {base ref : Kf} {op op' : OptPoint}
    (hk : IsLowest added (construct added).keyFrames k) (h1 : (construct added).keyFrames[k]? = some base)
    (h2 : (construct added).keyFrames[r]? = some ref) (hr : r ≠ k) (hi : base.points[i]? = some op) (hl : op.logInvDepth = some 0)
    (hs : Cam.isOnImage exCam (seenIn exCam base ref op.p (Real.exp (-0))) 2)
    (hp : PointPair (construct added).keyFrames out k i op op') (ha : op.state = .active) {δ : ℝ}
    (hδ : ∀ kf ∈ added, kf.addr ≠ base.addr → bright kf.addr - bright base.addr = δ) :
    (12 < δ → op'.state = .outlier) ∧ (δ ≤ 12 → op'.state = .active) ∧
    (∃ q, IsObs exCam exSettings (construct added).keyFrames q ∧ q.base = k ∧ q.idx = i) ∧
    (∀ q, IsObs exCam exSettings (construct added).keyFrames q → q.base = k → q.idx = i → mismatch exCam out q = δ) := by
  have hq0 : IsObs exCam exSettings (construct added).keyFrames ⟨k, i, r, ⟨0, 0⟩⟩ :=
    ⟨base, ref, op, 0, h1, h2, hi, hl, hr, by unfold exSettings; simp, hs⟩
  have hall : ∀ q, IsObs exCam exSettings (construct added).keyFrames q → q.base = k → q.idx = i → mismatch exCam out q = δ := by
    intro q hq hqk hqi
    obtain ⟨base', ref', op'', l, b1, b2, b3, b4, b5, b6⟩ := hq
    have hq : IsObs exCam exSettings (construct added).keyFrames q := ⟨base', ref', op'', l, b1, b2, b3, b4, b5, b6⟩
    rw [exMismatch hsolve hd h bright hb hq b1 b2]
    have : base' = base := by rw [hqk, h1] at b1; cases b1; rfl
    subst this
    refine hδ ref' (((construct_spec hd).1 _).1 (List.mem_of_getElem? b2)) ?_
    intro e
    exact b5 ((addr_inj (construct_spec hd).2.1 b2 b1).2.1 e)
  obtain ⟨obs, ⟨o1, -⟩, -, -, o4⟩ := C99_partial hd h hk hp
  have hmem := (o1 ⟨k, i, r, ⟨0, 0⟩⟩).2 ⟨hq0, rfl, rfl⟩
  obtain ⟨m, m1, m2, m3⟩ := o4 (by rw [ha]; decide) (List.ne_nil_of_mem hmem)
  have hm : m = δ := by
    obtain ⟨q, hq, rfl⟩ := List.mem_map.1 m1.1
    obtain ⟨q1, q2, q3⟩ := (o1 q).1 hq
    exact hall q q1 q2 q3
  rw [hm] at m2 m3
  exact ⟨m2, fun h => (m3 h).trans ha, ⟨_, hq0, rfl, rfl⟩, hall⟩

/-! ### Two keyframes -/

/-- The first keyframe. -/
def exF (g : ℝ) (points : List OptPoint) : Kf := exKf 0 ⟨0, 0, -1⟩ g points

/-- The second keyframe. -/
def exG (g : ℝ) (points : List OptPoint) : Kf := exKf 1 ⟨0, 0, 0⟩ g points

theorem ex_distinct (g g' : ℝ) (ps ps' : List OptPoint) : Distinct [exF g ps, exG g' ps'] := by
  unfold Distinct exF exG exKf; simp

theorem ex_construct (g g' : ℝ) (ps ps' : List OptPoint) : (construct [exF g ps, exG g' ps']).keyFrames = [exF g ps, exG g' ps'] := by
  simp [construct, addKeyFrame, insertKf, exF, exG, exKf]

theorem ex_apart (g g' : ℝ) (ps ps' : List OptPoint) : ∀ a b, a ∈ [exF g ps, exG g' ps'] → b ∈ [exF g ps, exG g' ps'] →
    a.addr ≠ b.addr → a.thisToWorld.t ≠ b.thisToWorld.t := by
  intro a b ha hb hab
  simp only [List.mem_cons, List.not_mem_nil, or_false] at ha hb
  rcases ha with rfl | rfl <;> rcases hb with rfl | rfl
  · exact absurd rfl hab
  · intro e; have := congrArg V3.z e; simp [exF, exG, exKf] at this
  · intro e; have := congrArg V3.z e; simp [exF, exG, exKf] at this
  · exact absurd rfl hab

theorem ex_defined (solve : Solver) (g g' : ℝ) (ps ps' : List OptPoint) (hp : ∀ op ∈ ps ++ ps', op.p = ⟨100, 100⟩) :
    ∃ out, adjust exCam exSettings solve (construct [exF g ps, exG g' ps']) = .ok out := by
  refine exDefined solve (ex_distinct g g' ps ps') (le_refl 2) (ex_apart g g' ps ps') ?_
  intro kf hkf
  simp only [List.mem_cons, List.not_mem_nil, or_false] at hkf
  rcases hkf with rfl | rfl
  · exact ⟨rfl, fun op h => hp op (List.mem_append.2 (Or.inl h))⟩
  · exact ⟨rfl, fun op h => hp op (List.mem_append.2 (Or.inr h))⟩

theorem ex_lowest (g g' : ℝ) (ps ps' : List OptPoint) (k : Nat) :
    IsLowest [exF g ps, exG g' ps'] (construct [exF g ps, exG g' ps']).keyFrames k ↔ k = 1 := by
  rw [C100_partial (by simp [exF, exG, exKf]), ex_construct]
  constructor
  · intro h
    match k with
    | 0 =>
      simp only [List.getElem?_cons_zero, Option.some.injEq] at h
      have := congrArg Kf.addr h
      simp [exF, exG, exKf] at this
    | 1 => rfl
    | k + 2 => simp at h
  · rintro rfl; rfl

/-- What is after the run where something was before. -/
theorem after_exists {c : Cam.Cam} {s : Settings} {solve : Solver} (hsolve : IsSolver solve) {added out : List Kf} (hd : Distinct added)
    (h : adjust c s solve (construct added) = .ok out) {k i : Nat} {kf : Kf} {op : OptPoint}
    (hk : (construct added).keyFrames[k]? = some kf) (hi : kf.points[i]? = some op) :
    ∃ op', PointPair (construct added).keyFrames out k i op op' := by
  obtain ⟨hlen, f1, -⟩ := C97_frame hsolve hd h
  obtain ⟨l1, -⟩ := List.getElem?_eq_some_iff.1 hk
  have hk' : out[k]? = some (out[k]'(by omega)) := List.getElem?_eq_getElem _
  obtain ⟨-, -, -, g4, -⟩ := f1 k kf _ ⟨hk, hk'⟩
  obtain ⟨l2, -⟩ := List.getElem?_eq_some_iff.1 hi
  exact ⟨_, kf, _, ⟨hk, hk'⟩, hi, List.getElem?_eq_getElem (by omega)⟩

/-- **C99, violated.** All brightness errors of an active point exceed the threshold by far, but the other keyframe is darker: whatever
the solver does, the point is active afterwards. -/
theorem C99_sign_violated : ∃ (c : Cam.Cam) (s : Settings) (added : List Kf), Distinct added ∧ patternHeight s.pattern = .ok s.height ∧
    ∀ solve, IsSolver solve → ∃ out k i op op', adjust c s solve (construct added) = .ok out ∧
      IsLowest added (construct added).keyFrames k ∧ PointPair (construct added).keyFrames out k i op op' ∧ op.state = .active ∧
      (∃ q, IsObs c s (construct added).keyFrames q ∧ q.base = k ∧ q.idx = i) ∧
      (∀ q, IsObs c s (construct added).keyFrames q → q.base = k → q.idx = i → s.outlierDiff < |mismatch c out q|) ∧
      op'.state = .active := by
  refine ⟨exCam, exSettings, [exF 100 [], exG 200 [exPoint]], ex_distinct _ _ _ _, exHeight, ?_⟩
  intro solve hsolve
  have hd := ex_distinct 100 200 [] [exPoint]
  obtain ⟨out, hout⟩ := ex_defined solve 100 200 [] [exPoint] (by simp [exPoint])
  have h1 : (construct [exF 100 [], exG 200 [exPoint]]).keyFrames[1]? = some (exG 200 [exPoint]) := by rw [ex_construct]; rfl
  have h0 : (construct [exF 100 [], exG 200 [exPoint]]).keyFrames[0]? = some (exF 100 []) := by rw [ex_construct]; rfl
  have hi : (exG 200 [exPoint]).points[0]? = some exPoint := rfl
  obtain ⟨op', hp⟩ := after_exists hsolve hd hout h1 hi
  have hlow := (ex_lowest 100 200 [] [exPoint] 1).2 rfl
  obtain ⟨-, s2, s3, s4⟩ := exState hsolve hd hout (fun a => if a = 0 then 100 else 200) (by
    intro kf hkf
    simp only [List.mem_cons, List.not_mem_nil, or_false] at hkf
    rcases hkf with rfl | rfl <;> exact ⟨rfl, by simp [exF, exG, exKf]⟩) hlow h1 h0 (by decide) hi rfl (by
      show Cam.isOnImage exCam (seenIn exCam (exG 200 [exPoint]) (exF 100 []) ⟨100, 100⟩ (Real.exp (-0))) 2
      unfold exG exF
      rw [exSeen]; exact exOn) hp rfl (δ := -100) (by
    intro kf hkf hne
    simp only [List.mem_cons, List.not_mem_nil, or_false] at hkf
    rcases hkf with rfl | rfl
    · simp [exF, exG, exKf]; norm_num
    · exact absurd rfl hne)
  refine ⟨out, 1, 0, exPoint, op', hout, hlow, hp, rfl, s3, ?_, s2 (by norm_num)⟩
  intro q q1 q2 q3
  rw [s4 q q1 q2 q3]
  unfold exSettings
  norm_num

/-- **C99, violated.** All brightness errors of an active point of the first keyframe exceed the threshold by far: whatever the solver
does, the point is active afterwards. -/
theorem C99_other_violated : ∃ (c : Cam.Cam) (s : Settings) (added : List Kf), Distinct added ∧ patternHeight s.pattern = .ok s.height ∧
    ∀ solve, IsSolver solve → ∃ out k i op op', adjust c s solve (construct added) = .ok out ∧
      IsFirst added (construct added).keyFrames k ∧ PointPair (construct added).keyFrames out k i op op' ∧ op.state = .active ∧
      (∃ q, IsObs c s (construct added).keyFrames q ∧ q.base = k ∧ q.idx = i) ∧
      (∀ q, IsObs c s (construct added).keyFrames q → q.base = k → q.idx = i → s.outlierDiff < mismatch c out q) ∧
      op'.state = .active := by
  refine ⟨exCam, exSettings, [exF 100 [exPoint], exG 200 []], ex_distinct _ _ _ _, exHeight, ?_⟩
  intro solve hsolve
  have hd := ex_distinct 100 200 [exPoint] []
  obtain ⟨out, hout⟩ := ex_defined solve 100 200 [exPoint] [] (by simp [exPoint])
  have h1 : (construct [exF 100 [exPoint], exG 200 []]).keyFrames[1]? = some (exG 200 []) := by rw [ex_construct]; rfl
  have h0 : (construct [exF 100 [exPoint], exG 200 []]).keyFrames[0]? = some (exF 100 [exPoint]) := by rw [ex_construct]; rfl
  have hi : (exF 100 [exPoint]).points[0]? = some exPoint := rfl
  obtain ⟨op', hp⟩ := after_exists hsolve hd hout h0 hi
  refine ⟨out, 0, 0, exPoint, op', hout, ⟨_, rfl, h0⟩, hp, rfl, ⟨⟨0, 0, 1, ⟨0, 0⟩⟩, ⟨_, _, exPoint, 0, h0, h1, hi, rfl, by decide, ?_, ?_⟩,
    rfl, rfl⟩, ?_, ?_⟩
  · unfold exSettings; simp
  · show Cam.isOnImage exCam (seenIn exCam (exF 100 [exPoint]) (exG 200 []) ⟨100, 100⟩ (Real.exp (-0))) 2
    unfold exG exF
    rw [exSeen]; exact exOn
  · intro q hq q2 q3
    obtain ⟨base, ref, op'', l, b1, b2, b3, b4, b5, b6⟩ := hq
    have hq : IsObs exCam exSettings (construct [exF 100 [exPoint], exG 200 []]).keyFrames q :=
      ⟨base, ref, op'', l, b1, b2, b3, b4, b5, b6⟩
    rw [exMismatch hsolve hd hout (fun a => if a = 0 then 100 else 200) (by
      intro kf hkf
      simp only [List.mem_cons, List.not_mem_nil, or_false] at hkf
      rcases hkf with rfl | rfl <;> exact ⟨rfl, by simp [exF, exG, exKf]⟩) hq b1 b2]
    rw [q2, h0] at b1
    cases b1
    have hr : ref ∈ [exF 100 [exPoint], exG 200 []] := ((construct_spec hd).1 _).1 (List.mem_of_getElem? b2)
    simp only [List.mem_cons, List.not_mem_nil, or_false] at hr
    rcases hr with rfl | rfl
    · exfalso
      rw [q2] at b5
      exact b5 ((addr_inj (construct_spec hd).2.1 b2 h0).2.1 rfl)
    · simp [exF, exG, exKf, exSettings]; norm_num
  · exact C99_others hd hout (fun hl => by have := (ex_lowest _ _ _ _ 0).1 hl; omega) hp

/-- **C98, violated.** An active point of the first keyframe whose depth is not finite is left as it is, and active, whatever the
solver does. -/
theorem C98_infinite_violated : ∃ (c : Cam.Cam) (s : Settings) (added : List Kf), Distinct added ∧
    patternHeight s.pattern = .ok s.height ∧
    ∀ solve, IsSolver solve → ∃ out k i op op', adjust c s solve (construct added) = .ok out ∧
      PointPair (construct added).keyFrames out k i op op' ∧ depthOf op' = none ∧ op'.state = .active := by
  refine ⟨exCam, exSettings, [exF 100 [⟨⟨100, 100⟩, none, 1, .active⟩], exG 200 []], ex_distinct _ _ _ _, exHeight, ?_⟩
  intro solve hsolve
  have hd := ex_distinct 100 200 [⟨⟨100, 100⟩, none, 1, .active⟩] []
  obtain ⟨out, hout⟩ := ex_defined solve 100 200 [⟨⟨100, 100⟩, none, 1, .active⟩] [] (by simp)
  have h0 : (construct [exF 100 [⟨⟨100, 100⟩, none, 1, .active⟩], exG 200 []]).keyFrames[0]? =
      some (exF 100 [⟨⟨100, 100⟩, none, 1, .active⟩]) := by rw [ex_construct]; rfl
  obtain ⟨op', hp⟩ := after_exists hsolve hd hout h0 (i := 0) rfl
  refine ⟨out, 0, 0, _, op', hout, hp, ?_, ?_⟩
  · have := ((C97_frame hsolve hd hout).2.2 _ _ _ _ hp).2.2.1.2 rfl
    unfold depthOf; rw [this]; rfl
  · exact C99_others hd hout (fun hl => by have := (ex_lowest _ _ _ _ 0).1 hl; omega) hp

/-! ### Three keyframes -/

/-- The third keyframe. -/
def exH (addr : Nat) : Kf := exKf addr ⟨0, 0, 1⟩ 200 []

/-- **C100, violated.** Three keyframes with the same contents, added in the same order, at different addresses: whatever the solver
does, in one case the point of the keyframe added second is an outlier afterwards, in the other it is active. -/
theorem C100_addresses_violated : ∃ (c : Cam.Cam) (s : Settings) (f g h : Kf), patternHeight s.pattern = .ok s.height ∧
    Distinct [f, { g with addr := 1 }, { h with addr := 2 }] ∧ Distinct [f, { g with addr := 2 }, { h with addr := 1 }] ∧
    ∀ solve, IsSolver solve → ∃ out₁ out₂ op op₁ op₂,
      adjust c s solve (construct [f, { g with addr := 1 }, { h with addr := 2 }]) = .ok out₁ ∧
      adjust c s solve (construct [f, { g with addr := 2 }, { h with addr := 1 }]) = .ok out₂ ∧
      (construct [f, { g with addr := 1 }, { h with addr := 2 }]).keyFrames[1]? = some { g with addr := 1 } ∧
      (construct [f, { g with addr := 2 }, { h with addr := 1 }]).keyFrames[2]? = some { g with addr := 2 } ∧
      PointPair (construct [f, { g with addr := 1 }, { h with addr := 2 }]).keyFrames out₁ 1 0 op op₁ ∧
      PointPair (construct [f, { g with addr := 2 }, { h with addr := 1 }]).keyFrames out₂ 2 0 op op₂ ∧
      op₁.state = .outlier ∧ op₂.state = .active := by
  refine ⟨exCam, exSettings, exF 200 [], exG 100 [exPoint], exH 0, exHeight, ?_, ?_, ?_⟩
  · unfold Distinct exF exG exH exKf; simp
  · unfold Distinct exF exG exH exKf; simp
  intro solve hsolve
  have e1 : [exF 200 [], { exG 100 [exPoint] with addr := 1 }, { exH 0 with addr := 2 }] = [exF 200 [], exG 100 [exPoint], exH 2] := rfl
  rw [e1]
  obtain ⟨g', hg'⟩ : ∃ g', g' = { exG 100 [exPoint] with addr := 2 } := ⟨_, rfl⟩
  have e2 : [exF 200 [], { exG 100 [exPoint] with addr := 2 }, { exH 0 with addr := 1 }] = [exF 200 [], g', exH 1] := by rw [hg']; rfl
  rw [e2]
  have d1 : Distinct [exF 200 [], exG 100 [exPoint], exH 2] := by unfold Distinct exF exG exH exKf; simp
  have d2 : Distinct [exF 200 [], g', exH 1] := by rw [hg']; unfold Distinct exF exG exH exKf; simp
  have k1 : (construct [exF 200 [], exG 100 [exPoint], exH 2]).keyFrames = [exF 200 [], exG 100 [exPoint], exH 2] := by
    simp [construct, addKeyFrame, insertKf, exF, exG, exH, exKf]
  have k2 : (construct [exF 200 [], g', exH 1]).keyFrames = [exF 200 [], exH 1, g'] := by
    rw [hg']; simp [construct, addKeyFrame, insertKf, exF, exG, exH, exKf]
  have apart : ∀ x y z : Kf, x.thisToWorld.t = ⟨0, 0, -1⟩ → y.thisToWorld.t = 0 → z.thisToWorld.t = ⟨0, 0, 1⟩ →
      ∀ a b, a ∈ [x, y, z] → b ∈ [x, y, z] → a.addr ≠ b.addr → a.thisToWorld.t ≠ b.thisToWorld.t := by
    intro x y z hx hy hz a b ha hb hab
    have hz0 : (0 : V3).z = 0 := rfl
    simp only [List.mem_cons, List.not_mem_nil, or_false] at ha hb
    rcases ha with rfl | rfl | rfl <;> rcases hb with rfl | rfl | rfl <;>
      first
      | exact absurd rfl hab
      | (intro e; have := congrArg V3.z e; simp only [hx, hy, hz, hz0] at this; norm_num at this)
  obtain ⟨out₁, hout₁⟩ := exDefined solve d1 (by simp) (apart _ _ _ rfl rfl rfl) (by
    intro kf hkf
    simp only [List.mem_cons, List.not_mem_nil, or_false] at hkf
    rcases hkf with rfl | rfl | rfl <;> exact ⟨rfl, by simp [exF, exG, exH, exKf, exPoint]⟩)
  obtain ⟨out₂, hout₂⟩ := exDefined solve d2 (by simp) (apart _ _ _ rfl (by rw [hg']; rfl) rfl) (by
    intro kf hkf
    simp only [List.mem_cons, List.not_mem_nil, or_false] at hkf
    rcases hkf with rfl | rfl | rfl
    · exact ⟨rfl, by simp [exF, exG, exH, exKf, exPoint]⟩
    · rw [hg']; exact ⟨rfl, by simp [exF, exG, exH, exKf, exPoint]⟩
    · exact ⟨rfl, by simp [exF, exG, exH, exKf, exPoint]⟩)
  have g1 : (construct [exF 200 [], exG 100 [exPoint], exH 2]).keyFrames[1]? = some (exG 100 [exPoint]) := by rw [k1]; rfl
  have g0 : (construct [exF 200 [], exG 100 [exPoint], exH 2]).keyFrames[0]? = some (exF 200 []) := by rw [k1]; rfl
  have g2 : (construct [exF 200 [], g', exH 1]).keyFrames[2]? = some g' := by rw [k2]; rfl
  have low1 : IsLowest [exF 200 [], exG 100 [exPoint], exH 2] (construct [exF 200 [], exG 100 [exPoint], exH 2]).keyFrames 1 := by
    obtain ⟨first, p1, -, p3, p4⟩ := positions d1 (f := exF 200 []) rfl
    have : first = 0 := ((addr_inj (construct_spec d1).2.1 p1 g0).2).1 rfl
    rw [p4, this, k1]; exact ⟨rfl, by simp⟩
  have low2 : ¬ IsLowest [exF 200 [], g', exH 1] (construct [exF 200 [], g', exH 1]).keyFrames 2 := by
    obtain ⟨first, p1, -, p3, p4⟩ := positions d2 (f := exF 200 []) rfl
    rw [p4]
    unfold secondIndex
    rintro ⟨h, -⟩
    split at h <;> omega
  have i1 : (exG 100 [exPoint]).points[0]? = some exPoint := rfl
  have i2 : g'.points[0]? = some exPoint := by rw [hg']; rfl
  obtain ⟨op₁, hp₁⟩ := after_exists hsolve d1 hout₁ g1 i1
  obtain ⟨op₂, hp₂⟩ := after_exists hsolve d2 hout₂ g2 i2
  refine ⟨out₁, out₂, exPoint, op₁, op₂, hout₁, hout₂, g1, ?_, hp₁, hp₂, ?_, C99_others d2 hout₂ low2 hp₂⟩
  · rw [g2, hg']
  · refine (exState hsolve d1 hout₁ (fun a => if a = 1 then 100 else 200) ?_ low1 g1 g0 (by decide) i1 rfl ?_ hp₁ rfl (δ := 100)
      ?_).1 (by norm_num)
    · intro kf hkf
      simp only [List.mem_cons, List.not_mem_nil, or_false] at hkf
      rcases hkf with rfl | rfl | rfl <;> exact ⟨rfl, by simp [exF, exG, exH, exKf]⟩
    · show Cam.isOnImage exCam (seenIn exCam (exG 100 [exPoint]) (exF 200 []) ⟨100, 100⟩ (Real.exp (-0))) 2
      unfold exG exF
      rw [exSeen]; exact exOn
    · intro kf hkf hne
      simp only [List.mem_cons, List.not_mem_nil, or_false] at hkf
      rcases hkf with rfl | rfl | rfl
      · simp [exF, exG, exKf]; norm_num
      · exact absurd rfl hne
      · simp [exH, exG, exKf]; norm_num

/-! ### At the border -/

/-- An active point two pixels from the right border. -/
def exBorder : OptPoint := ⟨⟨198, 100⟩, some 0, 1, .active⟩

theorem exBorder_seen : ∃ d, 0 < d ∧ seenIn exCam (exKf 1 ⟨0, 0, 0⟩ 200 [exBorder]) (exKf 0 ⟨-98, 0, -98⟩ 100 []) ⟨198, 100⟩ d = ⟨198, 100⟩ ∧
    d = Real.exp (-0) := by
  refine ⟨_, Real.exp_pos _, ?_, rfl⟩
  have hu : Cam.unmap exCam ⟨198, 100⟩ = ⟨98, 0, 98⟩ := by
    unfold Cam.unmap exCam
    ext
    · norm_num
    · norm_num
    · simp [Cam.unmapLoop]
  unfold seenIn inWorld
  rw [hu]
  have hpos : 0 < (⟨98, 0, 98⟩ : V3).sqNorm := by norm_num [V3.sqNorm]
  have hn : 0 < (⟨98, 0, 98⟩ : V3).norm := Real.sqrt_pos.2 hpos
  have e : (Base.inverse (exKf 0 ⟨-98, 0, -98⟩ 100 []).thisToWorld).act
      ((exKf 1 ⟨0, 0, 0⟩ 200 [exBorder]).thisToWorld.act (Real.exp (-0) • (⟨98, 0, 98⟩ : V3).normalized)) =
      (1 / (⟨98, 0, 98⟩ : V3).norm + 1) • (⟨98, 0, 98⟩ : V3) := by
    unfold V3.normalized
    rw [if_pos hpos]
    ext <;> simp [Motion3.act, Base.inverse, exKf, exRot, M3.mulVec, M3.transpose, V3.dot] <;> ring
  rw [e, Cam.C38_direction _ _ _ (by positivity)]
  have h2 : Cam.norm2 ⟨98, 0⟩ = 98 := by
    unfold Cam.norm2 sqNorm
    rw [show (98 * 98 + 0 * 0 : ℝ) = 98 ^ 2 by norm_num]
    exact Real.sqrt_sq (by norm_num)
  have ha : Cam.atan2 98 98 ≠ 0 := by
    unfold Cam.atan2
    intro h
    have := (Complex.arg_eq_zero_iff.1 h).2
    norm_num at this
  unfold Cam.map Cam.normalized2
  simp only
  rw [h2, if_pos (by norm_num [sqNorm])]
  unfold exCam
  simp only [Cam.polyLoop]
  ext
  · simp
    field_simp
    norm_num
  · simp

/-- **C101, violated.** Two keyframes at different places, the only point is as far from the border as the height of the pattern: the
gradient is read outside the picture. -/
theorem C101_border_violated : ∃ (c : Cam.Cam) (s : Settings) (added : List Kf), Distinct added ∧ added.length = 2 ∧
    patternHeight s.pattern = .ok s.height ∧
    (∀ kf ∈ added, kf.gradNorm.rows = c.height ∧ kf.gradNorm.cols = c.width ∧ ∀ op ∈ kf.points, Cam.isOnImage c op.p s.height) ∧
    (∀ f g, f ∈ added → g ∈ added → f.addr ≠ g.addr → f.thisToWorld.t ≠ g.thisToWorld.t) ∧
    ∀ solve, adjust c s solve (construct added) = .error .ub := by
  have hd : Distinct [exKf 0 ⟨-98, 0, -98⟩ 100 [], exKf 1 ⟨0, 0, 0⟩ 200 [exBorder]] := by unfold Distinct exKf; simp
  have hne : ∀ f g, f ∈ [exKf 0 ⟨-98, 0, -98⟩ 100 [], exKf 1 ⟨0, 0, 0⟩ 200 [exBorder]] →
      g ∈ [exKf 0 ⟨-98, 0, -98⟩ 100 [], exKf 1 ⟨0, 0, 0⟩ 200 [exBorder]] → f.addr ≠ g.addr → f.thisToWorld.t ≠ g.thisToWorld.t := by
    intro a b ha hb hab
    simp only [List.mem_cons, List.not_mem_nil, or_false] at ha hb
    rcases ha with rfl | rfl <;> rcases hb with rfl | rfl
    · exact absurd rfl hab
    · intro e; have := congrArg V3.z e; simp [exKf] at this
    · intro e; have := congrArg V3.z e; simp [exKf] at this
    · exact absurd rfl hab
  refine ⟨exCam, exSettings, _, hd, rfl, exHeight, ?_, hne, ?_⟩
  · intro kf hkf
    simp only [List.mem_cons, List.not_mem_nil, or_false] at hkf
    rcases hkf with rfl | rfl
    · exact ⟨rfl, rfl, by simp [exKf]⟩
    · refine ⟨rfl, rfl, ?_⟩
      intro op hop
      simp only [exKf, List.mem_cons, List.not_mem_nil, or_false] at hop
      subst hop
      unfold Cam.isOnImage exCam exSettings exBorder
      norm_num
  · intro solve
    obtain ⟨t1, t2, t3⟩ := C101_defined exCam exSettings solve hd
    have hk : (construct [exKf 0 ⟨-98, 0, -98⟩ 100 [], exKf 1 ⟨0, 0, 0⟩ 200 [exBorder]]).keyFrames =
        [exKf 0 ⟨-98, 0, -98⟩ 100 [], exKf 1 ⟨0, 0, 0⟩ 200 [exBorder]] := by
      simp [construct, addKeyFrame, insertKf, exKf]
    rw [hk] at t1 t3
    cases hadj : adjust exCam exSettings solve (construct [exKf 0 ⟨-98, 0, -98⟩ 100 [], exKf 1 ⟨0, 0, 0⟩ 200 [exBorder]]) with
    | ok out =>
      exfalso
      obtain ⟨-, -, -, -, -, -, -, -, -, hin⟩ := t1.1 ⟨out, hadj⟩
      obtain ⟨d, -, hs, rfl⟩ := exBorder_seen
      have := hin ⟨1, 0, 0, ⟨2, 0⟩⟩ _ exBorder ⟨_, _, exBorder, 0, rfl, rfl, rfl, rfl, by decide, by unfold exSettings; simp, by
        show Cam.isOnImage exCam (seenIn exCam _ _ ⟨198, 100⟩ (Real.exp (-0))) 2
        rw [hs]
        unfold Cam.isOnImage exCam
        norm_num⟩ rfl rfl
      have h4 := this.2.2.2
      have h5 : Util.truncInt (exBorder.p + (⟨2, 0⟩ : V2)).x = 200 := by
        unfold Util.truncInt exBorder
        norm_num
      rw [h5] at h4
      exact absurd h4 (by decide)
    | error e =>
      rcases t2 e hadj with rfl | rfl
      · exfalso
        obtain ⟨j, k, f, sk, hj, hk', hf, hsk, he⟩ := t3.1 hadj
        obtain ⟨f', q1, q2⟩ := hj
        obtain ⟨sk', r1, r2, -⟩ := hk'
        refine hne sk f (List.mem_of_getElem? hsk) (List.mem_of_getElem? hf) ?_ he
        intro hadd
        apply r2
        simp only [List.head?_cons, Option.some.injEq] at q1
        rw [hf] at q2
        cases q2
        subst q1
        have hm := List.mem_of_getElem? hsk
        simp only [List.mem_cons, List.not_mem_nil, or_false] at hm
        rcases hm with rfl | rfl
        · exact ⟨_, rfl, hsk⟩
        · simp [exKf] at hadd
      · rfl

/-! ### The theorems apply -/

/-- Non-vacuity of C97 to C102: two keyframes within the limits, the point of the second one is observed, and bundle adjustment is
defined for a solver that meets its specification. -/
example : ∃ added, Distinct added ∧ IsSolver idle ∧ (∀ kf ∈ added, WithinLimits exSettings kf) ∧ 0 < exSettings.depthMin ∧
    0 < exSettings.depthMax ∧ exSettings.pattern.Nodup ∧ (∃ out, adjust exCam exSettings idle (construct added) = .ok out) ∧
    IsLowest added (construct added).keyFrames 1 ∧ ∃ q, IsObs exCam exSettings (construct added).keyFrames q := by
  have h1 : (construct [exF 100 [], exG 100 [exPoint]]).keyFrames[1]? = some (exG 100 [exPoint]) := by rw [ex_construct]; rfl
  have h0 : (construct [exF 100 [], exG 100 [exPoint]]).keyFrames[0]? = some (exF 100 []) := by rw [ex_construct]; rfl
  refine ⟨[exF 100 [], exG 100 [exPoint]], ex_distinct _ _ _ _, idle_solver, ?_, ?_, ?_, ?_, ex_defined idle _ _ _ _ (by simp [exPoint]),
    (ex_lowest _ _ _ _ 1).2 rfl, ⟨1, 0, 0, ⟨0, 0⟩⟩, _, _, exPoint, 0, h1, h0, rfl, rfl, by decide, ?_, ?_⟩
  · intro kf hkf
    simp only [List.mem_cons, List.not_mem_nil, or_false] at hkf
    rcases hkf with rfl | rfl
    · unfold WithinLimits exSettings exF exKf AffLight.identity; norm_num
    · refine ⟨by unfold exSettings exG exKf AffLight.identity; norm_num, ?_⟩
      intro op hop d hd
      simp only [exG, exKf, List.mem_cons, List.not_mem_nil, or_false] at hop
      subst hop
      simp only [depthOf, exPoint, Option.map_some, neg_zero, Real.exp_zero, Option.some.injEq] at hd
      subst hd
      unfold exSettings
      norm_num
  · unfold exSettings; norm_num
  · unfold exSettings; norm_num
  · unfold exSettings
    rw [List.nodup_cons]
    refine ⟨?_, by simp⟩
    simp only [List.mem_cons, List.not_mem_nil, or_false]
    intro e
    have := congrArg V2.x e
    norm_num at this
  · unfold exSettings; simp
  · show Cam.isOnImage exCam (seenIn exCam (exG 100 [exPoint]) (exF 100 []) ⟨100, 100⟩ (Real.exp (-0))) 2
    unfold exG exF
    rw [exSeen]; exact exOn

end Mdso.BA
