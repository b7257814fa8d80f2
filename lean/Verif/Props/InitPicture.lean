import Verif.Props.Initializer
import Verif.Props.DepthColour
import Verif.Props.DrawTracing
import Verif.Props.DensePictures
import Verif.Spec.InitPicture

/-!
# C161: the picture of the initial depths; C162: the picture of a keyframe
-/

set_option autoImplicit false

namespace Mdso.InitPicture

open Mdso.Geom Mdso.Util Mdso.Tri Mdso.Tri.Spec Mdso.TraceDraw.Spec Mdso.InitPicture.Spec

theorem depthCol_colour {lo hi : ℝ} (h : lo < hi) (d : ℝ) : ∃ c, depthCol d lo hi = some c ∧ IsDepthColour lo hi d c := by
  obtain ⟨h1, h2, -⟩ := C53_colour_partial h
  rcases lt_or_ge d lo with g | g
  · exact ⟨red, h1 d g, fun _ => rfl, fun g' => absurd (lt_trans g' g) (by linarith), fun g' => absurd g (not_lt.2 g')⟩
  · rcases lt_or_ge hi d with g' | g'
    · exact ⟨blue, h2 d g', fun k => absurd g (not_le.2 k), fun _ => rfl, fun _ k => absurd g' (not_lt.2 k)⟩
    · obtain ⟨c, hc, hr⟩ := TraceDraw.depthCol_ramp h g g'
      exact ⟨c, hc, fun k => absurd g (not_le.2 k), fun k => absurd g' (not_le.2 k), fun _ _ => hr⟩

theorem circles_spec (lo hi : ℝ) (solid : Bool) : ∀ (ps : List V2) (ds : List ℝ), ps.length = ds.length →
    OneEach (IsCircleAt lo hi (if solid then 6 else 5) (if solid then -1 else 2)) (ps.zip ds) (depthCircles lo hi solid ps ds)
  | [], _, _ => by unfold depthCircles; simp [OneEach]
  | p :: ps, [], h => by simp at h
  | p :: ps, d :: ds, h => by
    unfold depthCircles OneEach
    rw [List.zip_cons_cons]
    refine List.Forall₂.cons ?_ (circles_spec lo hi solid ps ds (by simpa using h))
    exact ⟨_, _, rfl, ⟨rfl, rfl⟩, fun hlt => depthCol_colour hlt d⟩

theorem depthsOf_ok : ∀ (ips : List Init.IPoint), (∀ ip ∈ ips, ∃ d, ip.pt.depth = some d) →
    ∃ ds, depthsOf ips = .ok ds ∧ ips.map (·.pt.depth) = ds.map some
  | [], _ => ⟨[], rfl, rfl⟩
  | ip :: ips, h => by
    obtain ⟨d, hd⟩ := h ip (by simp)
    obtain ⟨ds, h1, h2⟩ := depthsOf_ok ips fun x hx => h x (by simp [hx])
    refine ⟨d :: ds, ?_, by simp [hd, h2]⟩
    unfold depthsOf
    simp only [hd, bind, Except.bind, h1]

theorem circles_length (lo hi : ℝ) (solid : Bool) {ps : List V2} {ds : List ℝ} (h : ps.length = ds.length) :
    (depthCircles lo hi solid ps ds).length = ps.length := by
  have := (circles_spec lo hi solid ps ds h).length_eq
  rw [List.length_zip, h, Nat.min_self] at this
  rw [h, this]

/-- What is drawn, in terms of the model. -/
theorem create_eq {S : Init.Setup} {m0 m1 : Init.Matched} {l0 l1 : List Init.IPoint}
    (h : Init.createKeyFrames S false m0 m1 = .ok (some (l0, l1))) (hm : m1.keyPoints.length = m1.depths.length)
    {redPart bluePart : ℝ} (hr : 0 ≤ redPart ∧ redPart ≤ 1) (hb : 0 ≤ bluePart ∧ bluePart ≤ 1) (edges : List (List Line)) :
    ∃ (ds : List ℝ) (lo hi : ℝ), l1.map (·.pt.depth) = ds.map some ∧ ds ≠ [] ∧ l1.length = ds.length ∧
      IsQuantile redPart ds lo ∧ IsQuantile bluePart ds hi ∧
      ∀ b, createAndDraw S false m0 m1 redPart bluePart b edges =
        .ok (some ((l0, l1), ⟨depthCircles lo hi true m1.keyPoints m1.depths ++ edges.map .curve ++
          depthCircles lo hi false (l1.map (·.p)) ds, true, ⟨lo, hi⟩⟩)) := by
  obtain ⟨init0, init1, -, -, -, hd, -, hne, -⟩ := Init.spherical_spec h
  obtain ⟨ds, h1, h2⟩ := depthsOf_ok l1 fun ip hip => by
    obtain ⟨⟨-, d, -, e, -⟩, -⟩ := hd ip hip
    exact ⟨d, e⟩
  have hlen : l1.length = ds.length := by
    have := congrArg List.length h2
    simpa using this
  have hds : ds ≠ [] := by
    rintro rfl
    exact hne (List.length_eq_zero_iff.1 (by simpa using hlen))
  obtain ⟨lo, hi, e1, q1, q2, -⟩ := (C53_bounds hr.1 hr.2 hb.1 hb.2 ds ⟨0, 0⟩).2 hds
  have e2 : ∀ b, setDepthColBounds redPart bluePart ds b = .ok ⟨lo, hi⟩ := by
    intro b
    rw [← e1]
    unfold setDepthColBounds
    cases ds with
    | nil => exact absurd rfl hds
    | cons d ds => rfl
  refine ⟨ds, lo, hi, h2, hds, hlen, q1, q2, fun b => ?_⟩
  unfold createAndDraw
  simp only [h, bind, Except.bind, Bool.false_eq_true, if_false]
  unfold initialized insertDepths
  simp only [h1, e2 b, bind, Except.bind]
  rw [if_neg (by simpa using hm)]
  simp only
  rw [if_neg (by simpa using hlen)]

/-- C161: whenever the initializer has created the first keyframes, its drawer has a picture, too. The picture shows each key point as a
filled disc, then the edges of the terrain, then each point of the keyframe as a ring, each at its pixel and in the colour of its
depth. The range of the colours is given by two quantiles of the depths of the points of this keyframe, whatever was drawn before. -/
theorem C161_picture_partial {S : Init.Setup} {m0 m1 : Init.Matched} {l0 l1 : List Init.IPoint}
    (h : Init.createKeyFrames S false m0 m1 = .ok (some (l0, l1))) (hm : m1.keyPoints.length = m1.depths.length)
    {redPart bluePart : ℝ} (hr : 0 ≤ redPart ∧ redPart ≤ 1) (hb : 0 ≤ bluePart ∧ bluePart ≤ 1) (edges : List (List Line)) :
    ∃ (ds : List ℝ) (lo hi : ℝ) (discs rings : List Mark),
      l1.map (·.pt.depth) = ds.map some ∧ ds ≠ [] ∧ IsQuantile redPart ds lo ∧ IsQuantile bluePart ds hi ∧
      (∀ b, createAndDraw S false m0 m1 redPart bluePart b edges =
        .ok (some ((l0, l1), ⟨discs ++ edges.map .curve ++ rings, true, ⟨lo, hi⟩⟩))) ∧
      OneEach (IsCircleAt lo hi 6 (-1)) (m1.keyPoints.zip m1.depths) discs ∧
      OneEach (IsCircleAt lo hi 5 2) ((l1.map (·.p)).zip ds) rings := by
  obtain ⟨ds, lo, hi, h1, h2, hlen, q1, q2, hc⟩ := create_eq h hm hr hb edges
  have hring := circles_spec lo hi false (l1.map fun ip : Init.IPoint => ip.p) ds (by simpa using hlen)
  exact ⟨ds, lo, hi, _, _, h1, h2, q1, q2, hc, circles_spec lo hi true m1.keyPoints m1.depths hm, hring⟩

/-- C161: with plain triangulation the drawer is never told, and there is no picture. -/
theorem C161_plain_violated {S : Init.Setup} {m0 m1 : Init.Matched} {kfs : List Init.IPoint × List Init.IPoint}
    (h : Init.createKeyFrames S true m0 m1 = .ok (some kfs)) (redPart bluePart : ℝ) (b : ColBounds) (edges : List (List Line)) :
    createAndDraw S true m0 m1 redPart bluePart b edges = .ok (some (kfs, ⟨[], false, b⟩)) := by
  unfold createAndDraw
  simp only [h, bind, Except.bind, if_true]

theorem circles_equal (d : ℝ) (solid : Bool) : ∀ (ps : List V2) (ds : List ℝ), (∀ x ∈ ds, x = d) → ∀ m ∈ depthCircles d d solid ps ds,
    ∃ px r t, m = .circle ⟨px, r, none, t⟩
  | [], _, _ => by unfold depthCircles; simp
  | p :: ps, [], h => by unfold depthCircles; simp
  | p :: ps, x :: ds, h => by
    unfold depthCircles
    intro m hm
    rcases List.mem_cons.1 hm with rfl | hm
    · have hx := h x (by simp)
      subst hx
      have : depthCol x x x = none := by unfold depthCol fdiv; norm_num
      unfold depthCircle
      rw [this]
      exact ⟨_, _, _, rfl⟩
    · exact circles_equal d solid ps ds (fun y hy => h y (by simp [hy])) m hm

/-- C161: if all points of the keyframe have the same depth, for example if there is only one, then none of their rings has a colour
made of numbers. -/
theorem C161_equal_violated {S : Init.Setup} {m0 m1 : Init.Matched} {l0 l1 : List Init.IPoint}
    (h : Init.createKeyFrames S false m0 m1 = .ok (some (l0, l1))) (hm : m1.keyPoints.length = m1.depths.length)
    {d : ℝ} (hd : ∀ ip ∈ l1, ip.pt.depth = some d)
    {redPart bluePart : ℝ} (hr : 0 ≤ redPart ∧ redPart ≤ 1) (hb : 0 ≤ bluePart ∧ bluePart ≤ 1) (edges : List (List Line)) (b : ColBounds) :
    ∃ (discs rings : List Mark), createAndDraw S false m0 m1 redPart bluePart b edges =
        .ok (some ((l0, l1), ⟨discs ++ edges.map .curve ++ rings, true, ⟨d, d⟩⟩)) ∧
      discs.length = m1.keyPoints.length ∧ rings.length = l1.length ∧ rings ≠ [] ∧
      ∀ m ∈ rings, ∃ px r t, m = .circle ⟨px, r, none, t⟩ := by
  obtain ⟨ds, lo, hi, h1, h2, hlen, q1, q2, hc⟩ := create_eq h hm hr hb edges
  have hall : ∀ x ∈ ds, x = d := by
    intro x hx
    have : some x ∈ l1.map (·.pt.depth) := by rw [h1]; exact List.mem_map.2 ⟨x, hx, rfl⟩
    obtain ⟨ip, hip, e⟩ := List.mem_map.1 this
    rw [hd ip hip] at e
    exact (Option.some.inj e).symm
  have e1 := hall lo q1.1
  have e2 := hall hi q2.1
  subst e1
  subst e2
  have hl : (depthCircles hi hi false (l1.map (·.p)) ds).length = l1.length := by
    rw [circles_length hi hi false (by simpa using hlen), List.length_map]
  refine ⟨_, _, hc b, circles_length _ _ _ hm, hl, ?_, circles_equal hi false _ ds hall⟩
  intro hn
  rw [hn] at hl
  exact h2 (List.length_eq_zero_iff.1 (by rw [← hlen, ← hl]; rfl))

/-- The four key points of the demonstration and its only point: both theorems apply. -/
example {L : Linear} (hL : Exact L) : ∃ l0 l1 discs rings, ∃ d : ℝ,
    createAndDraw (Init.sphereSetup L [⟨1, 1⟩]) false Init.sphereMatched Init.sphereMatched 0 0.7 ⟨0, 1⟩ [] =
      .ok (some ((l0, l1), ⟨discs ++ rings, true, ⟨d, d⟩⟩)) ∧ discs.length = 4 ∧ rings.length = 1 ∧
    ∀ m ∈ rings, ∃ px r t, m = Mark.circle ⟨px, r, none, t⟩ := by
  obtain ⟨l0, l1, h⟩ := Init.sphere_created hL
  obtain ⟨init0, init1, -, -, -, hd, -, hne, -, n, dirs, hsub, -⟩ := Init.spherical_spec h
  have hlen : l1.length = 1 := by
    have h1 := hsub.length_le
    have h2 : ((Init.sphereSetup L [⟨1, 1⟩]).select 3 n).length = 1 := rfl
    rw [h2, List.length_map] at h1
    have := List.length_pos_of_ne_nil hne
    omega
  obtain ⟨ip, rfl⟩ := List.length_eq_one_iff.1 hlen
  obtain ⟨⟨-, d, -, e, -⟩, -⟩ := hd ip (by simp)
  have hm : Init.sphereMatched.keyPoints.length = Init.sphereMatched.depths.length := by simp [Init.sphereMatched]
  obtain ⟨discs, rings, g1, g2, g3, -, g4⟩ := C161_equal_violated h hm (d := d) (by simpa using e) (redPart := 0) (bluePart := 0.7)
    (by norm_num) (by norm_num) [] ⟨0, 1⟩
  exact ⟨l0, [ip], discs, rings, d, by simpa using g1, by rw [g2]; rfl, by simpa using g3, g4⟩

/-! ## C162 -/

theorem squares_spec {lo hi : ℝ} (hlt : lo < hi) : ∀ (ips : List Init.IPoint) (ds : List ℝ), (shown ips).map (·.pt.depth) = ds.map some →
    immatureSquares lo hi ips = .ok (((shown ips).zip ds).map fun q => .square (pixelOf q.1.p) 5 (Dense.Spec.ramp lo hi q.2) 2)
  | [], _, _ => by unfold immatureSquares shown; rfl
  | ip :: ips, ds, h => by
    unfold immatureSquares
    unfold shown at h ⊢
    rw [List.filter_cons] at h ⊢
    by_cases hc : ip.pt.state = .active ∧ ip.pt.maxDepth ≠ ⊤
    · rw [if_pos (decide_eq_true hc)] at h ⊢
      cases ds with
      | nil => simp at h
      | cons d ds =>
        simp only [List.map_cons, List.cons.injEq] at h
        rw [if_pos hc]
        simp only [h.1, bind, Except.bind, Dense.colour_ramp hlt, squares_spec hlt ips ds h.2]
        rfl
    · rw [if_neg (by simpa using hc)] at h
      rw [if_neg hc, if_neg (by simpa using hc)]
      exact squares_spec hlt ips ds h

theorem circles_kf {lo hi : ℝ} (hlt : lo < hi) : ∀ ops : List OPoint,
    optimizedCircles lo hi ops = .ok (ops.map fun op => .circle (pixelOf op.p) 5 (Dense.Spec.ramp lo hi op.depth) 2)
  | [] => rfl
  | op :: ops => by
    unfold optimizedCircles
    simp only [Dense.colour_ramp hlt, bind, Except.bind, circles_kf hlt ops]
    rfl

theorem squares_fault {lo hi : ℝ} (hlt : lo < hi) : ∀ (ips : List Init.IPoint), (∃ ip ∈ shown ips, ip.pt.depth = none) →
    immatureSquares lo hi ips = .error .ub
  | [], h => by obtain ⟨ip, h, -⟩ := h; simp [shown] at h
  | x :: ips, h => by
    unfold immatureSquares
    unfold shown at h
    rw [List.filter_cons] at h
    by_cases hc : x.pt.state = .active ∧ x.pt.maxDepth ≠ ⊤
    · rw [if_pos (decide_eq_true hc)] at h
      rw [if_pos hc]
      cases hd : x.pt.depth with
      | none => simp only [bind, Except.bind]
      | some d =>
        obtain ⟨ip, hip, h3⟩ := h
        rcases List.mem_cons.1 hip with rfl | hip
        · rw [hd] at h3; cases h3
        · simp only [bind, Except.bind, Dense.colour_ramp hlt, squares_fault hlt ips ⟨ip, hip, h3⟩]
    · rw [if_neg (by simpa using hc)] at h
      rw [if_neg hc]
      exact squares_fault hlt ips h

/-- C162: if the colour bounds differ, the picture of a keyframe has one square for each active point with a bounded depth interval, then
one circle for each optimized point, each at its pixel in the colour of its depth, and nothing else. It is drawn if and only if all these
depths are known. -/
theorem C162_marks_partial {lo hi : ℝ} (hlt : lo < hi) (ips : List Init.IPoint) (ops : List OPoint) :
    (∀ ds, (shown ips).map (·.pt.depth) = ds.map some → drawDepthedFrame lo hi ips ops = .ok
      (((shown ips).zip ds).map (fun q => .square (pixelOf q.1.p) 5 (Dense.Spec.ramp lo hi q.2) 2) ++
        ops.map fun op => .circle (pixelOf op.p) 5 (Dense.Spec.ramp lo hi op.depth) 2)) ∧
    ((∃ ip ∈ shown ips, ip.pt.depth = none) → drawDepthedFrame lo hi ips ops = .error .ub) := by
  constructor
  · intro ds h
    unfold drawDepthedFrame
    simp only [squares_spec hlt ips ds h, circles_kf hlt ops, bind, Except.bind]
  · intro h
    unfold drawDepthedFrame
    simp only [squares_fault hlt ips h, bind, Except.bind]

/-- C162: if all depths are equal, the bounds found for them are equal, too, and the colours are undefined: here for a keyframe with
one optimized point. -/
theorem C162_equal_violated (d : ℝ) (p : V2) (redPart bluePart : ℝ) (b : ColBounds) : ∃ b', setDepthColBounds redPart bluePart [d] b = .ok b' ∧
    drawDepthedFrame b'.minDepthCol b'.maxDepthCol [] [⟨p, d⟩] = .error .ub := by
  have hcol : depthCol d d d = none := by unfold depthCol fdiv; norm_num
  refine ⟨⟨d, d⟩, ?_, ?_⟩
  · rw [C53_bounds_clamped]
    obtain ⟨lo, hi, e, q1, q2, -⟩ := (C53_bounds (redPart := max 0 (min 1 redPart)) (bluePart := max 0 (min 1 bluePart))
      (by simp) (by simp) (by simp) (by simp) [d] b).2 (by simp)
    have e1 : lo = d := by simpa using q1.1
    have e2 : hi = d := by simpa using q2.1
    rw [e, e1, e2]
  · unfold drawDepthedFrame immatureSquares optimizedCircles
    simp only [bind, Except.bind, hcol, Dense.toCvVec3bDummy]

theorem kept_maxDepth {S : Init.Setup} {st : List Sector} {ps : List V2} {x : Init.IPoint}
    (h : x ∈ Init.kept S st (Init.addImmatures S ps)) : x.pt.maxDepth = ⊤ := by
  unfold Init.kept at h
  rw [Init.erase_eq, List.mem_filter] at h
  obtain ⟨ip, hip, dirs', rfl⟩ := Init.mark_mem h.1
  obtain ⟨p, -, rfl⟩ := List.mem_map.1 hip
  unfold Init.verdict
  split
  · split <;> rfl
  · rfl

/-- C162: the points of the keyframes made at initialization have depths, but none of them is marked. -/
theorem C162_initial_violated {S : Init.Setup} {m0 m1 : Init.Matched} {l0 l1 : List Init.IPoint}
    (h : Init.createKeyFrames S false m0 m1 = .ok (some (l0, l1))) (lo hi : ℝ) :
    l1 ≠ [] ∧ (∀ ip ∈ l1, ip.pt.state = .active ∧ ∃ d, ip.pt.depth = some d) ∧ drawDepthedFrame lo hi l1 [] = .ok [] := by
  obtain ⟨init0, init1, -, -, -, hd, -, hne, -, n, dirs, -, hk⟩ := Init.spherical_spec h
  refine ⟨hne, fun ip hip => ?_, ?_⟩
  · obtain ⟨⟨ha, d, -, e, -⟩, -⟩ := hd ip hip
    exact ⟨ha, d, e⟩
  · have htop : ∀ ip ∈ l1, ip.pt.maxDepth = ⊤ := fun ip hip => by
      rw [hk] at hip
      exact kept_maxDepth hip
    have : immatureSquares lo hi l1 = .ok [] := by
      clear hk hd hne h
      induction l1 with
      | nil => rfl
      | cons x l ih =>
        unfold immatureSquares
        rw [if_neg (by simp [htop x (by simp)])]
        exact ih fun ip hip => htop ip (by simp [hip])
    unfold drawDepthedFrame optimizedCircles
    simp only [this, bind, Except.bind]
    rfl

/-- The keyframe of the demonstration. -/
example {L : Linear} (hL : Exact L) : ∃ l0 l1, Init.createKeyFrames (Init.sphereSetup L [⟨1, 1⟩]) false Init.sphereMatched Init.sphereMatched =
    .ok (some (l0, l1)) ∧ l1 ≠ [] ∧ drawDepthedFrame 0 1 l1 [] = .ok [] := by
  obtain ⟨l0, l1, h⟩ := Init.sphere_created hL
  exact ⟨l0, l1, h, (C162_initial_violated h 0 1).1, (C162_initial_violated h 0 1).2.2⟩

/-- A traced point, a point off the picture and an optimized point: one square, one circle. -/
example : drawDepthedFrame 1 3 [⟨⟨5, 6⟩, { Trace.new true with maxDepth := ((4 : ℝ) : WithTop ℝ), depth := some 2 }⟩, ⟨⟨1, 1⟩, Trace.new false⟩]
      [⟨⟨7, 8⟩, 1⟩] = .ok [.square (pixelOf ⟨5, 6⟩) 5 (Dense.Spec.ramp 1 3 2) 2, .circle (pixelOf ⟨7, 8⟩) 5 (Dense.Spec.ramp 1 3 1) 2] := by
  have h := (C162_marks_partial (lo := 1) (hi := 3) (by norm_num) [⟨⟨5, 6⟩, { Trace.new true with maxDepth := ((4 : ℝ) : WithTop ℝ), depth := some 2 }⟩,
    ⟨⟨1, 1⟩, Trace.new false⟩] [⟨⟨7, 8⟩, 1⟩]).1 [2] (by simp [shown, Trace.new])
  refine h.trans ?_
  simp [shown, Trace.new]

end Mdso.InitPicture
