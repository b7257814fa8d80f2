import Verif.Props.InitUnit
import Verif.Props.InitPicture
import Verif.Props.ColourFlags
import Verif.Props.DensePictures

/-!
# Pictures of depths in another unit of length (C189)
-/

set_option autoImplicit false

namespace Mdso.Util

theorem fdiv_unit {σ : ℝ} (hσ : 0 < σ) (x y : ℝ) : fdiv (σ * x) (σ * y) = fdiv x y := by
  unfold fdiv
  by_cases h : y = 0
  · rw [if_pos h, if_pos (by rw [h, mul_zero])]
  · rw [if_neg h, if_neg (mul_ne_zero hσ.ne' h), mul_div_mul_left _ _ hσ.ne']

/-- **C189, colours.** The colour of a depth between two bounds does not depend on the unit of length. -/
theorem C189_colour {σ : ℝ} (hσ : 0 < σ) (d mind maxd : ℝ) : depthCol (σ * d) (σ * mind) (σ * maxd) = depthCol d mind maxd := by
  unfold depthCol
  dsimp only
  have hm : (σ * mind + σ * maxd) / 2 = σ * ((mind + maxd) / 2) := by ring
  rw [hm]
  simp only [gt_iff_lt, mul_lt_mul_iff_right₀ hσ, ← mul_sub, fdiv_unit hσ]

theorem bounds_unit {σ : ℝ} (hσ : 0 < σ) (redPart bluePart : ℝ) (depths : List ℝ) (b : ColBounds) :
    setDepthColBounds redPart bluePart (depths.map fun d => σ * d) ⟨σ * b.minDepthCol, σ * b.maxDepthCol⟩ =
      (setDepthColBounds redPart bluePart depths b).map fun b => ⟨σ * b.minDepthCol, σ * b.maxDepthCol⟩ := by
  have hs : (depths.map fun d => σ * d).mergeSort (fun x y => decide (x ≤ y)) = (depths.mergeSort fun x y => decide (x ≤ y)).map fun d => σ * d := by
    refine (List.map_mergeSort fun a _ b _ => ?_).symm
    simp only [mul_le_mul_iff_right₀ hσ]
  unfold setDepthColBounds
  rw [List.isEmpty_map]
  by_cases h : depths.isEmpty = true
  · rw [if_pos h, if_pos h]; rfl
  · rw [if_neg h, if_neg h]
    dsimp only
    rw [hs, List.length_map, Tri.at_map, Tri.at_map]
    cases at' (depths.mergeSort fun x y => decide (x ≤ y)) (colIndex redPart (depths.mergeSort fun x y => decide (x ≤ y)).length) with
    | error e => rfl
    | ok lo =>
      cases at' (depths.mergeSort fun x y => decide (x ≤ y)) (colIndex bluePart (depths.mergeSort fun x y => decide (x ≤ y)).length) with
      | error e => rfl
      | ok hi => rfl

/-- With some depths the bounds before do not matter. -/
theorem bounds_fresh {redPart bluePart : ℝ} {depths : List ℝ} (h : depths ≠ []) (b b' : ColBounds) :
    setDepthColBounds redPart bluePart depths b = setDepthColBounds redPart bluePart depths b' := by
  unfold setDepthColBounds
  rw [if_neg (by simpa using h), if_neg (by simpa using h)]

/-- **C189, bounds.** Depths drawn with the bounds set from them have the same colours in every unit of length, whatever the bounds before. -/
theorem C189_bounds {σ : ℝ} (hσ : 0 < σ) (redPart bluePart : ℝ) (b b' : ColBounds) (depths : List ℝ) :
    drawWithOwnBounds redPart bluePart b' (depths.map fun d => σ * d) = drawWithOwnBounds redPart bluePart b depths := by
  by_cases h : depths = []
  · rw [h]; rfl
  · unfold drawWithOwnBounds
    rw [bounds_fresh (by simpa using h) b' ⟨σ * b.minDepthCol, σ * b.maxDepthCol⟩, bounds_unit hσ]
    cases setDepthColBounds redPart bluePart depths b with
    | error e => rfl
    | ok c =>
      show Except.ok _ = Except.ok _
      rw [List.map_map]
      congr 1
      apply List.map_congr_left
      intro d _
      exact C189_colour hσ d _ _

end Mdso.Util

namespace Mdso.Dense

open Mdso.Geom Mdso.Tri Mdso.Tri.Spec Mdso.Util

theorem paint_unit {σ : ℝ} (hσ : 0 < σ) {f g : Nat × Nat → Except Fault (Option (Option ℝ))} (mind maxd : ℝ) : ∀ (qs : List (Nat × Nat)) (img : Pyr.Img Bgr),
    (∀ q ∈ qs, g q = (f q).map fun o => o.map fun o => o.map fun d => σ * d) → paint g (σ * mind) (σ * maxd) qs img = paint f mind maxd qs img
  | [], _, _ => rfl
  | q :: qs, img, h => by
    rw [paint, paint, h q (by simp)]
    cases f q with
    | error e => rfl
    | ok o =>
      cases o with
      | none => rfl
      | some o =>
        cases o with
        | none => exact paint_unit hσ mind maxd qs img fun q hq => h q (by simp [hq])
        | some d =>
          simp only [Except.map, Option.map_some, bind, Except.bind]
          rw [C189_colour hσ]
          cases toCvVec3bDummy (depthCol d mind maxd) with
          | error e => rfl
          | ok c => exact paint_unit hσ mind maxd qs _ fun q hq => h q (by simp [hq])

/-- **C189, terrains.** The dense picture of a plain terrain in another unit of length, with the bounds in this unit, is the same. -/
theorem C189_terrain {L : Linear} (hL : Exact L) {σ : ℝ} (hσ : 0 < σ) {env env' : Env} (henv : Lawful env) (henv' : Lawful env')
    {unmap : V2 → V3} {s : Settings} {points : List V2} {depths : List ℝ} {order : List Nat} {fuel : Nat}
    (ho : Shuffle points.length order) (hG : GeneralPosition s points) (hu : ∀ p ∈ points, unmap p ≠ 0) {T T' : Terrain}
    (h : newTerrain env unmap s points depths order fuel = .ok (some T))
    (h' : newTerrain env unmap s points (depths.map fun d => σ * d) order fuel = .ok (some T'))
    (coin : Nat × Nat → Nat → Bool) (fuel' : Nat) (typeOk : Bool) (img : Pyr.Img Bgr) (mind maxd : ℝ) :
    drawDensePlainDepths L env' T' coin fuel' typeOk img (σ * mind) (σ * maxd) = drawDensePlainDepths L env' T coin fuel' typeOk img mind maxd := by
  obtain ⟨T'', e, hd⟩ := C188_plain hL hσ henv henv' ho hG hu h
  obtain rfl : T'' = T' := Option.some.inj (Except.ok.inj (e.symm.trans h'))
  unfold drawDensePlainDepths
  cases typeOk with
  | false => rfl
  | true => exact paint_unit hσ mind maxd _ img fun q _ => (hd _ _ _).2

/-- **C189, depth pictures.** So is the picture of a frame with known depths. -/
theorem C189_frame {σ : ℝ} (hσ : 0 < σ) (frame : Pyr.Img Nat) (depths : Pyr.Img ℝ) (mind maxd : ℝ) :
    drawDepthedFrame frame ⟨depths.rows, depths.cols, fun y x => σ * depths.px y x⟩ (σ * mind) (σ * maxd) = drawDepthedFrame frame depths mind maxd := by
  unfold drawDepthedFrame
  by_cases h : frame.rows = 0 ∨ frame.cols = 0
  · rw [if_pos h, if_pos h]
  · rw [if_neg h, if_neg h]
    refine paint_unit hσ mind maxd _ _ fun q _ => ?_
    unfold knownDepth Pyr.Img.read
    dsimp only
    split
    · show Except.ok (some (if σ * depths.px q.1 q.2 > 0 then some (σ * depths.px q.1 q.2) else none)) =
        Except.ok (some ((if depths.px q.1 q.2 > 0 then some (depths.px q.1 q.2) else none).map fun d => σ * d))
      by_cases hp : depths.px q.1 q.2 > 0
      · rw [if_pos hp, if_pos (mul_pos hσ hp)]; rfl
      · rw [if_neg hp, if_neg (by rw [gt_iff_lt, mul_pos_iff_of_pos_left hσ]; exact hp)]; rfl
    · rfl

/-- The hypotheses of `C189_terrain` are met: the picture of a terrain is painted, and the same in millimetres. -/
example {L : Linear} (hL : Exact L) : ∃ T T' img,
    newTerrain demoEnv (fun _ => axis) defaultSettings (quadPoints.map Q2.real) [1, 2, 3, 4] [0, 1, 2, 3] 100 = .ok (some T) ∧
    newTerrain demoEnv (fun _ => axis) defaultSettings (quadPoints.map Q2.real) ([1, 2, 3, 4].map fun d => 1000 * d) [0, 1, 2, 3] 100 = .ok (some T') ∧
    drawDensePlainDepths L demoEnv T (fun _ _ => true) 100 true ⟨3, 4, fun _ _ => (9, 9, 9)⟩ 1 5 = .ok (some img) ∧
    drawDensePlainDepths L demoEnv T' (fun _ _ => true) 100 true ⟨3, 4, fun _ _ => (9, 9, 9)⟩ (1000 * 1) (1000 * 5) = .ok (some img) := by
  obtain ⟨T, img, -, h, hd, -⟩ := quad_dense hL
  have ho : Shuffle (quadPoints.map Q2.real).length [0, 1, 2, 3] := by show [0, 1, 2, 3].Perm [0, 1, 2, 3]; decide
  obtain ⟨T', h', -⟩ := C188_plain (σ := 1000) hL (by norm_num) demoEnv_lawful demoEnv_lawful ho quad_general (fun _ _ => Init.axis_ne) h
  exact ⟨T, T', img, h, h', hd, (C189_terrain (σ := 1000) hL (by norm_num) demoEnv_lawful demoEnv_lawful ho quad_general (fun _ _ => Init.axis_ne) h h'
    _ _ _ _ _ _).trans hd⟩

end Mdso.Dense

namespace Mdso.InitPicture

open Mdso.Geom Mdso.Tri Mdso.Tri.Spec Mdso.Util Mdso.Init Mdso.Init.Spec

theorem circles_unit {σ : ℝ} (hσ : 0 < σ) (lo hi : ℝ) (solid : Bool) : ∀ (ps : List V2) (ds : List ℝ),
    depthCircles (σ * lo) (σ * hi) solid ps (ds.map fun d => σ * d) = depthCircles lo hi solid ps ds
  | [], _ => by simp [depthCircles]
  | _ :: _, [] => by simp [depthCircles]
  | p :: ps, d :: ds => by
    rw [List.map_cons, depthCircles, depthCircles, circles_unit hσ lo hi solid ps ds]
    unfold depthCircle
    rw [C189_colour hσ]

theorem insert_unit {σ : ℝ} (hσ : 0 < σ) (lo hi : ℝ) (solid : Bool) (ps : List V2) (ds : List ℝ) :
    insertDepths ps (ds.map fun d => σ * d) (σ * lo) (σ * hi) solid = insertDepths ps ds lo hi solid := by
  unfold insertDepths
  rw [List.length_map, circles_unit hσ]

theorem depthsOf_unit (σ : ℝ) : ∀ ips : List IPoint, depthsOf (ips.map (IPoint.inUnit σ)) = (depthsOf ips).map fun l => l.map fun d => σ * d
  | [] => rfl
  | ip :: ips => by
    rw [List.map_cons, depthsOf, depthsOf, depthsOf_unit σ ips]
    have hd : (IPoint.inUnit σ ip).pt.depth = ip.pt.depth.map fun d => σ * d := rfl
    rw [hd]
    cases ip.pt.depth with
    | none => rfl
    | some d =>
      cases depthsOf ips with
      | error e => rfl
      | ok l => rfl

/-- The picture of the initial depths in another unit. -/
theorem initialized_unit {σ : ℝ} (hσ : 0 < σ) (redPart bluePart : ℝ) (b : ColBounds) (ips : List IPoint) (edges : List (List Line)) (m : Matched) :
    initialized redPart bluePart ⟨σ * b.minDepthCol, σ * b.maxDepthCol⟩ (ips.map (IPoint.inUnit σ)) edges (Matched.inUnit σ m) =
      (initialized redPart bluePart b ips edges m).map fun D => { D with bounds := ⟨σ * D.bounds.minDepthCol, σ * D.bounds.maxDepthCol⟩ } := by
  unfold initialized
  rw [depthsOf_unit]
  cases depthsOf ips with
  | error e => rfl
  | ok ds =>
    simp only [Except.map, bind, Except.bind]
    rw [bounds_unit hσ]
    cases setDepthColBounds redPart bluePart ds b with
    | error e => rfl
    | ok c =>
      simp only [Except.map]
      have e1 : insertDepths (Matched.inUnit σ m).keyPoints (Matched.inUnit σ m).depths (σ * c.minDepthCol) (σ * c.maxDepthCol) true =
        insertDepths m.keyPoints m.depths c.minDepthCol c.maxDepthCol true := insert_unit hσ _ _ _ _ _
      have e2 : (ips.map (IPoint.inUnit σ)).map (fun ip => ip.p) = ips.map fun ip => ip.p := by rw [List.map_map]; rfl
      rw [e1, e2, insert_unit hσ]
      cases insertDepths m.keyPoints m.depths c.minDepthCol c.maxDepthCol true with
      | error e => rfl
      | ok discs =>
        cases insertDepths (ips.map fun ip => ip.p) ds c.minDepthCol c.maxDepthCol false with
        | error e => rfl
        | ok rings => rfl

theorem initialized_fresh {redPart bluePart : ℝ} {ips : List IPoint} (h : ips ≠ []) (b b' : ColBounds) (edges : List (List Line)) (m : Matched) :
    initialized redPart bluePart b ips edges m = initialized redPart bluePart b' ips edges m := by
  unfold initialized
  cases hd : depthsOf ips with
  | error e => rfl
  | ok ds =>
    have : ds ≠ [] := by
      rintro rfl
      cases ips with
      | nil => exact h rfl
      | cons ip ips =>
        rw [depthsOf] at hd
        cases hp : ip.pt.depth with
        | none => simp [hp, bind, Except.bind] at hd
        | some d =>
          cases hq : depthsOf ips <;> simp [hp, hq, bind, Except.bind] at hd
    simp only [bind, Except.bind]
    rw [bounds_fresh this b b']

/-- **C189, initialization.** The picture drawn after initialization is the same in every unit of length, whatever the bounds for colours before, and these
bounds are afterwards in the new unit. -/
theorem C189_initialization {S : Setup} (hL : Exact S.L) {σ : ℝ} (hσ : 0 < σ) (m0 m1 : Matched)
    (hreg0 : ∀ init, newSectors S.env S.arrange S.s (spatial S m0) (S.order 0) S.fuel = .ok (some init) → ∀ x ∈ init, det3 x.r0 x.r1 x.r2 ≠ 0)
    (hreg1 : ∀ init, newSectors S.env S.arrange S.s (spatial S m1) (S.order 1) S.fuel = .ok (some init) → ∀ x ∈ init, det3 x.r0 x.r1 x.r2 ≠ 0)
    (redPart bluePart : ℝ) (b b' : ColBounds) (edges : List (List Line)) :
    createAndDraw S false (Matched.inUnit σ m0) (Matched.inUnit σ m1) redPart bluePart b' edges =
      (createAndDraw S false m0 m1 redPart bluePart b edges).map fun o => o.map fun r =>
        ((r.1.1.map (IPoint.inUnit σ), r.1.2.map (IPoint.inUnit σ)),
          ⟨r.2.marks, r.2.didInitialize, ⟨σ * r.2.bounds.minDepthCol, σ * r.2.bounds.maxDepthCol⟩⟩) := by
  unfold createAndDraw
  rw [C188_initialization hL hσ hσ m0 m1 hreg0 hreg1]
  cases h : createKeyFrames S false m0 m1 with
  | error e => rfl
  | ok o =>
    cases o with
    | none => rfl
    | some l =>
      obtain ⟨l0, l1⟩ := l
      obtain ⟨i0, i1, -, -, -, -, -, n1, -⟩ := spherical_spec h
      simp only [Except.map, Option.map_some, bind, Except.bind, Bool.false_eq_true, if_false]
      rw [initialized_fresh (by simpa using n1) b' ⟨σ * b.minDepthCol, σ * b.maxDepthCol⟩, initialized_unit hσ]
      cases initialized redPart bluePart b l1 edges m1 with
      | error e => rfl
      | ok D => rfl

theorem squares_unit {σ : ℝ} (hσ : 0 < σ) (lo hi : ℝ) : ∀ ips : List IPoint,
    immatureSquares (σ * lo) (σ * hi) (ips.map (IPoint.inUnit σ)) = immatureSquares lo hi ips
  | [] => rfl
  | ip :: ips => by
    have hc : ((IPoint.inUnit σ ip).pt.state = .active ∧ (IPoint.inUnit σ ip).pt.maxDepth ≠ ⊤) ↔ (ip.pt.state = .active ∧ ip.pt.maxDepth ≠ ⊤) := by
      show (ip.pt.state = .active ∧ ip.pt.maxDepth.map (fun d => σ * d) ≠ ⊤) ↔ _
      cases ip.pt.maxDepth with
      | top => simp
      | coe d =>
        have h1 : (WithTop.map (fun d => σ * d) (d : WithTop ℝ)) ≠ ⊤ := WithTop.coe_ne_top
        have h2 : (d : WithTop ℝ) ≠ ⊤ := WithTop.coe_ne_top
        exact and_congr_right fun _ => ⟨fun _ => h2, fun _ => h1⟩
    rw [List.map_cons, immatureSquares, immatureSquares, squares_unit hσ lo hi ips]
    by_cases h : ip.pt.state = .active ∧ ip.pt.maxDepth ≠ ⊤
    · rw [if_pos h, if_pos (hc.2 h)]
      have hd : (IPoint.inUnit σ ip).pt.depth = ip.pt.depth.map fun d => σ * d := rfl
      rw [hd]
      cases ip.pt.depth with
      | none => rfl
      | some d =>
        simp only [Option.map_some, bind, Except.bind]
        rw [C189_colour hσ]
        rfl
    · rw [if_neg h, if_neg fun g => h (hc.1 g)]

theorem optimized_unit {σ : ℝ} (hσ : 0 < σ) (lo hi : ℝ) : ∀ ops : List OPoint,
    optimizedCircles (σ * lo) (σ * hi) (ops.map fun op => ⟨op.p, σ * op.depth⟩) = optimizedCircles lo hi ops
  | [] => rfl
  | op :: ops => by
    rw [List.map_cons, optimizedCircles, optimizedCircles, optimized_unit hσ lo hi ops]
    simp only [C189_colour hσ]

/-- **C189, keyframes.** So is the picture of a keyframe with its candidates and optimized points. -/
theorem C189_keyframe {σ : ℝ} (hσ : 0 < σ) (lo hi : ℝ) (ips : List IPoint) (ops : List OPoint) :
    drawDepthedFrame (σ * lo) (σ * hi) (ips.map (IPoint.inUnit σ)) (ops.map fun op => ⟨op.p, σ * op.depth⟩) = drawDepthedFrame lo hi ips ops := by
  unfold drawDepthedFrame
  rw [squares_unit hσ, optimized_unit hσ]

/-- The hypotheses of `C189_initialization` are met: a picture is drawn, and it is the same in millimetres. -/
example {L : Linear} (hL : Exact L) : ∃ r, createAndDraw (sphereSetup L [⟨1, 1⟩]) false sphereMatched sphereMatched 0 0.7 ⟨0, 1⟩ [] = .ok (some r) ∧
    r.2.marks.length = 5 ∧ ∃ r', createAndDraw (sphereSetup L [⟨1, 1⟩]) false (Matched.inUnit 1000 sphereMatched) (Matched.inUnit 1000 sphereMatched) 0 0.7
      ⟨0, 1⟩ [] = .ok (some r') ∧ r'.2.marks = r.2.marks := by
  obtain ⟨l0, l1, h⟩ := sphere_created hL
  obtain ⟨init0, init1, -, -, -, hd, -, hne, -, n, dirs, hsub, -⟩ := spherical_spec h
  have hlen : l1.length = 1 := by
    have h1 := hsub.length_le
    have h2 : ((sphereSetup L [⟨1, 1⟩]).select 3 n).length = 1 := rfl
    rw [h2, List.length_map] at h1
    have := List.length_pos_of_ne_nil hne
    omega
  obtain ⟨ip, rfl⟩ := List.length_eq_one_iff.1 hlen
  obtain ⟨⟨-, d, -, e, -⟩, -⟩ := hd ip (by simp)
  have hm : sphereMatched.keyPoints.length = sphereMatched.depths.length := by simp [sphereMatched]
  obtain ⟨discs, rings, g1, g2, g3, -, -⟩ := C161_equal_violated h hm (d := d) (by simpa using e) (redPart := 0) (bluePart := 0.7)
    (by norm_num) (by norm_num) [] ⟨0, 1⟩
  have c := C189_initialization (S := sphereSetup L [⟨1, 1⟩]) hL (σ := 1000) (by norm_num) sphereMatched sphereMatched (sphere_reg L 0) (sphere_reg L 1)
    0 0.7 ⟨0, 1⟩ ⟨0, 1⟩ []
  rw [g1] at c
  refine ⟨_, g1, ?_, _, c, rfl⟩
  have g4 : discs.length = 4 := g2
  have g5 : rings.length = 1 := g3
  simp [g4, g5]

end Mdso.InitPicture
