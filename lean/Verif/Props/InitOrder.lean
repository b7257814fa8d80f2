import Verif.Props.Initializer
import Verif.Props.Delaunay2
import Verif.Props.SphericalDelaunay

/-!
# The first two keyframes do not depend on the order of insertion
-/

set_option autoImplicit false

namespace Mdso.Init

open Mdso.Geom Mdso.Tri Mdso.Tri.Spec Mdso.Init.Spec

/-! ### Plain terrains -/

theorem clear_of_off {env : Tri.Env} (henv : Lawful env) {unmap : V2 → V3} {s : Tri.Settings} {points : List V2}
    {depths : List ℝ} {order : List Nat} {fuel : Nat} (ho : Shuffle points.length order) (hG : GeneralPosition s points)
    {T : Terrain} (h : newTerrain env unmap s points depths order fuel = .ok (some T)) {p : V2}
    (hp : OffSegments s points p) : Clear T p := by
  obtain ⟨⟨l, ht⟩, -, hs, hpt, hor, -⟩ := newTerrain_spec h
  obtain ⟨r', hr', -, g⟩ := triangulate_general henv ho hG fuel
  rw [hr'] at ht
  obtain ⟨-, -, -, -, -, AE, AT, k1, k2, -, k4, -⟩ := g _ l (Except.ok.inj ht)
  have hpos : T.pos = position points order := by unfold Terrain.pos; rw [hpt, hor]
  have hm : ∀ e ∈ T.triang.allEdges, ∀ j, position points order (T.triang.mesh.ev e j) ∈ sites points := by
    intro e he j
    exact List.mem_of_getElem? (site_pos ho (k2.lt _ (k1.endV e ((k4 e).1 he) j)))
  intro e he
  rw [hpos, hs, hpt]
  exact hp _ (hm e he 0) _ (hm e he 1)

theorem markPlain_congr {S S' : Setup} {T T' : Terrain} {walk walk' : Nat → Nat → Bool} {ips l l' : List IPoint} {n n' : Nat}
    (hd : ∀ ip ∈ ips, ∀ coin coin' r r', T.depthAt S.L S.env ip.p coin S.fuel = .ok (some r) →
      T'.depthAt S'.L S'.env ip.p coin' S'.fuel = .ok (some r') → r = r')
    (h : markPlain S T walk n ips = .ok (some l)) (h' : markPlain S' T' walk' n' ips = .ok (some l')) : l = l' := by
  induction ips generalizing n n' l l' with
  | nil => cases h; cases h'; rfl
  | cons ip ips ih =>
    unfold markPlain at h h'
    simp only [bind, Except.bind] at h h'
    cases h1 : T.depthAt S.L S.env ip.p (walk n) S.fuel with
    | error f => rw [h1] at h; cases h
    | ok o =>
    cases h2 : T'.depthAt S'.L S'.env ip.p (walk' n') S'.fuel with
    | error f => rw [h2] at h'; cases h'
    | ok o' =>
    rw [h1] at h
    rw [h2] at h'
    cases o with
    | none => cases h
    | some o =>
    cases o' with
    | none => cases h'
    | some o' =>
    obtain rfl := hd ip (List.mem_cons_self ..) _ _ _ _ h1 h2
    simp only at h h'
    cases g1 : markPlain S T walk (n + 1) ips with
    | error f => rw [g1] at h; cases h
    | ok q =>
    cases g2 : markPlain S' T' walk' (n' + 1) ips with
    | error f => rw [g2] at h'; cases h'
    | ok q' =>
    rw [g1] at h
    rw [g2] at h'
    cases q with
    | none => cases h
    | some q =>
    cases q' with
    | none => cases h'
    | some q' =>
    obtain rfl := ih (fun ip hip => hd ip (List.mem_cons_of_mem _ hip)) g1 g2
    exact Option.some.inj (Except.ok.inj (h.symm.trans h'))

theorem plain_inv {S : Setup} {m0 m1 : Matched} {l0 l1 : List IPoint}
    (h : createKeyFrames S true m0 m1 = .ok (some (l0, l1))) : ∃ T0 T1 : Terrain,
      newTerrain S.env S.unmap S.s m0.keyPoints m0.depths (S.order 0) S.fuel = .ok (some T0) ∧
      newTerrain S.env S.unmap S.s m1.keyPoints m1.depths (S.order 1) S.fuel = .ok (some T1) ∧
      markPlain S T0 (S.walk 0) 0 (construct S 0) = .ok (some l0) ∧
      markPlain S T1 (S.walk 1) 0 (construct S 1) = .ok (some l1) := by
  unfold createKeyFrames at h
  simp only [if_true, createPlain, bind, Except.bind] at h
  split at h
  · cases h
  next o0 e0 =>
  cases o0 with
  | none => cases h
  | some T0 =>
    simp only at h
    split at h
    · cases h
    next o1 e1 =>
    cases o1 with
    | none => cases h
    | some T1 =>
      simp only at h
      split at h
      · cases h
      next p0 f0 =>
      cases p0 with
      | none => cases h
      | some l0' =>
        simp only at h
        split at h
        · cases h
        next p1 f1 =>
        cases p1 with
        | none => cases h
        | some l1' =>
          obtain ⟨rfl, rfl⟩ := Prod.mk.inj (Option.some.inj (Except.ok.inj h))
          exact ⟨T0, T1, e0, e1, f0, f1⟩

theorem construct_same {S S' : Setup} (h : SameTask S S') (i : Nat) : construct S' i = construct S i := by
  obtain ⟨-, h2, h3, -, h5, -⟩ := h
  unfold construct addImmatures
  rw [h2, h3, h5]

theorem construct_p {S : Setup} {i : Nat} {ip : IPoint} (h : ip ∈ construct S i) : ip.p ∈ S.select i S.pointsNum := by
  obtain ⟨y, hy, rfl⟩ := List.mem_map.1 h
  obtain ⟨p, hp, rfl⟩ := List.mem_map.1 hy
  exact hp

/-- What is asked of the key points of a frame and of the way they are inserted. -/
structure PlainFrame (S : Setup) (i : Nat) (m : Matched) : Prop where
  env : Lawful S.env
  order : Shuffle m.keyPoints.length (S.order i)
  general : GeneralPosition S.s m.keyPoints
  many : 3 ≤ m.keyPoints.length
  circle : NoFourOnCircle m.keyPoints
  ray : ∀ p ∈ m.keyPoints, S.unmap p ≠ 0
  off : ∀ p ∈ S.select i S.pointsNum, OffSegments S.s m.keyPoints p

/-- C155 for the plain branch: two runs with the same frames give the same points, with the same states and depths,
whatever the orders of insertion, the tolerances and the coins. -/
theorem C155_plain {S S' : Setup} (hL : Exact S.L) (hS : SameTask S S') {m0 m1 : Matched} (h0 : PlainFrame S 0 m0)
    (h1 : PlainFrame S 1 m1) (h0' : PlainFrame S' 0 m0) (h1' : PlainFrame S' 1 m1) {l l' : List IPoint × List IPoint}
    (h : createKeyFrames S true m0 m1 = .ok (some l)) (h' : createKeyFrames S' true m0 m1 = .ok (some l')) : l = l' := by
  obtain ⟨l0, l1⟩ := l
  obtain ⟨l0', l1'⟩ := l'
  obtain ⟨T0, T1, t0, t1, k0, k1⟩ := plain_inv h
  obtain ⟨T0', T1', t0', t1', k0', k1'⟩ := plain_inv h'
  rw [construct_same hS] at k0' k1'
  have key : ∀ (i : Nat) (m : Matched) (T T' : Terrain), PlainFrame S i m → PlainFrame S' i m →
      newTerrain S.env S.unmap S.s m.keyPoints m.depths (S.order i) S.fuel = .ok (some T) →
      newTerrain S'.env S'.unmap S'.s m.keyPoints m.depths (S'.order i) S'.fuel = .ok (some T') →
      ∀ ip ∈ construct S i, ∀ coin coin' r r', T.depthAt S.L S.env ip.p coin S.fuel = .ok (some r) →
        T'.depthAt S'.L S'.env ip.p coin' S'.fuel = .ok (some r') → r = r' := by
    intro i m T T' f f' ht ht' ip hip coin coin' r r' hr hr'
    have hp := construct_p hip
    have hp' : ip.p ∈ S'.select i S'.pointsNum := by rw [hS.2.2.2.2.1, hS.2.2.1]; exact hp
    have c := clear_of_off f.env f.order f.general ht (f.off _ hp)
    have c' := clear_of_off f'.env f'.order f'.general ht' (f'.off _ hp')
    rw [hS.1] at ht'
    rw [hS.2.2.2.2.2] at hr'
    exact C151_same_depth hL f.env f.order f.general f.ray f.many ht f'.env f'.order f'.general ht' f.circle c c' f.env f'.env
      hr hr'
  rw [markPlain_congr (key 0 m0 T0 T0' h0 h0' t0 t0') k0 k0', markPlain_congr (key 1 m1 T1 T1' h1 h1' t1 t1') k1 k1']

/-! ### Spherical terrains -/

theorem offSides_of_planes {rays : List V3} {a b c dir : V3} (ha : a ∈ rays) (hb : b ∈ rays) (hc : c ∈ rays)
    (hr : det3 a b c ≠ 0) (hd : OffPlanes rays dir) : OffSides a b c dir := by
  obtain ⟨i, hi⟩ := List.mem_iff_getElem?.1 ha
  obtain ⟨j, hj⟩ := List.mem_iff_getElem?.1 hb
  obtain ⟨k, hk⟩ := List.mem_iff_getElem?.1 hc
  have hij : i ≠ j := by
    rintro rfl
    rw [hi] at hj; cases hj
    exact hr (by unfold det3 V3.dot V3.cross; ring)
  have hik : i ≠ k := by
    rintro rfl
    rw [hi] at hk; cases hk
    exact hr (by unfold det3 V3.dot V3.cross; ring)
  have hjk : j ≠ k := by
    rintro rfl
    rw [hj] at hk; cases hk
    exact hr (by unfold det3 V3.dot V3.cross; ring)
  rintro x y z hx hy hz rfl
  have e1 := hd i j a b hij hi hj
  have e2 := hd i k a c hik hi hk
  have e3 := hd j k b c hjk hj hk
  refine ⟨lt_of_le_of_ne hx ?_, lt_of_le_of_ne hy ?_, lt_of_le_of_ne hz ?_⟩
  · rintro rfl
    exact e3 (by unfold det3 V3.dot V3.cross; simp only [V3.add_x, V3.add_y, V3.add_z, V3.smul_x, V3.smul_y, V3.smul_z]; ring)
  · rintro rfl
    exact e2 (by unfold det3 V3.dot V3.cross; simp only [V3.add_x, V3.add_y, V3.add_z, V3.smul_x, V3.smul_y, V3.smul_z]; ring)
  · rintro rfl
    exact e1 (by unfold det3 V3.dot V3.cross; simp only [V3.add_x, V3.add_y, V3.add_z, V3.smul_x, V3.smul_y, V3.smul_z]; ring)

/-- What is asked of the key points of a frame and of the way they are inserted. -/
structure SphericalFrame (S : Setup) (i : Nat) (m : Matched) : Prop where
  env : Lawful S.env
  arrange : Arrangement S.arrange
  nonzero : ∀ r ∈ spatial S m, r ≠ 0
  around : AroundAxis (spatial S m)
  circle : NoFourOnPlane (spatial S m)
  general : ∃ points, projectAll (spatial S m) = some points ∧ Shuffle points.length (S.order i) ∧ GeneralPosition S.s points
  off : ∀ k n, ∀ p ∈ S.select k n, OffPlanes (spatial S m) (S.unmap p)

theorem spherical_inv {S : Setup} {m0 m1 : Matched} {l0 l1 : List IPoint}
    (h : createKeyFrames S false m0 m1 = .ok (some (l0, l1))) : ∃ init0 init1 : List Sector,
      newSectors S.env S.arrange S.s (spatial S m0) (S.order 0) S.fuel = .ok (some init0) ∧
      newSectors S.env S.arrange S.s (spatial S m1) (S.order 1) S.fuel = .ok (some init1) ∧
      rounds S (fun i => S.select (2 + i)) reselectCount init0 (construct S 0) = .ok l0 ∧
      rounds S (fun i => S.select (2 + reselectCount + i)) reselectCount init1 (construct S 1) = .ok l1 := by
  unfold createKeyFrames at h
  simp only [Bool.false_eq_true, if_false, createSpherical, depthedRays] at h
  by_cases g0 : m0.depths.length < m0.keyPoints.length
  · rw [if_pos g0] at h; cases h
  rw [if_neg g0] at h
  by_cases g1 : m1.depths.length < m1.keyPoints.length
  · rw [if_pos g1] at h; cases h
  rw [if_neg g1] at h
  simp only [bind, Except.bind] at h
  split at h
  · cases h
  next o0 e0 =>
  cases o0 with
  | none => cases h
  | some init0 =>
    simp only at h
    split at h
    · cases h
    next o1 e1 =>
    cases o1 with
    | none => cases h
    | some init1 =>
      simp only at h
      split at h
      · cases h
      next l0' f0 =>
      split at h
      · cases h
      next l1' f1 =>
      obtain ⟨rfl, rfl⟩ := Prod.mk.inj (Option.some.inj (Except.ok.inj h))
      exact ⟨init0, init1, e0, e1, f0, f1⟩

/-- Two terrains that give the same answers to the directions in question mark the points alike. -/
theorem mark_congr {S S' : Setup} (hS : SameTask S S') {P : V3 → Prop} {init init' : List Sector}
    (hd : ∀ dirs dirs' dir, (∀ d ∈ dir :: dirs, P d) → (∀ d ∈ dir :: dirs', P d) →
      (sphericalDepth S.L (lookedUp S.L init dirs) dir).1 = (sphericalDepth S.L (lookedUp S.L init' dirs') dir).1)
    (ips : List IPoint) (hP : ∀ ip ∈ ips, P (S.unmap ip.p)) (dirs dirs' : List V3) (h1 : ∀ d ∈ dirs, P d)
    (h2 : ∀ d ∈ dirs', P d) :
    (markSpherical S (lookedUp S.L init dirs) ips).1 = (markSpherical S' (lookedUp S.L init' dirs') ips).1 ∧
    ∃ e e' : List V3, (∀ d ∈ e, P d) ∧ (∀ d ∈ e', P d) ∧
      (markSpherical S (lookedUp S.L init dirs) ips).2 = lookedUp S.L init e ∧
      (markSpherical S' (lookedUp S.L init' dirs') ips).2 = lookedUp S.L init' e' := by
  obtain ⟨s1, -, -, -, -, s6⟩ := id hS
  induction ips generalizing dirs dirs' with
  | nil => exact ⟨rfl, dirs, dirs', h1, h2, rfl, rfl⟩
  | cons ip ips ih =>
    have hip := hP ip (List.mem_cons_self ..)
    have hv : verdict S (lookedUp S.L init dirs) ip = verdict S' (lookedUp S.L init' dirs') ip := by
      unfold verdict
      rw [s1, s6, hd dirs dirs' (S.unmap ip.p) (by simpa using ⟨hip, h1⟩) (by simpa using ⟨hip, h2⟩)]
    have ha : asked S' [ip] = asked S [ip] := by
      unfold asked
      rw [s1]
      rfl
    have hPa : ∀ d ∈ asked S [ip], P d := by
      intro d hd
      unfold asked at hd
      split at hd
      · rw [show asked S [] = [] from rfl, List.mem_singleton] at hd
        rw [hd]; exact hip
      · cases hd
    have := ih (fun x hx => hP x (List.mem_cons_of_mem _ hx)) (dirs ++ asked S [ip]) (dirs' ++ asked S [ip])
      (fun d hd => (List.mem_append.1 hd).elim (h1 d) (hPa d)) (fun d hd => (List.mem_append.1 hd).elim (h2 d) (hPa d))
    rw [lookedUp_append, lookedUp_append] at this
    rw [mark_cons, mark_cons, ha, s6]
    simp only
    exact ⟨by rw [hv, this.1], this.2⟩

theorem rounds_congr {S S' : Setup} (hS : SameTask S S') {P : V3 → Prop} {init init' : List Sector}
    (hd : ∀ dirs dirs' dir, (∀ d ∈ dir :: dirs, P d) → (∀ d ∈ dir :: dirs', P d) →
      (sphericalDepth S.L (lookedUp S.L init dirs) dir).1 = (sphericalDepth S.L (lookedUp S.L init' dirs') dir).1)
    (call : Nat → Int → List V2) (hc : ∀ k n, ∀ p ∈ call k n, P (S.unmap p)) (k : Nat) (ips : List IPoint)
    (hP : ∀ ip ∈ ips, P (S.unmap ip.p)) (dirs dirs' : List V3) (h1 : ∀ d ∈ dirs, P d) (h2 : ∀ d ∈ dirs', P d) :
    rounds S call k (lookedUp S.L init dirs) ips = rounds S' call k (lookedUp S.L init' dirs') ips := by
  induction k generalizing ips dirs dirs' with
  | zero =>
    rw [rounds, rounds]
    rw [(mark_congr hS hd ips hP dirs dirs' h1 h2).1, hS.2.2.2.1]
  | succ k ih =>
    obtain ⟨e1, e, e', g1, g2, e2, e3⟩ := mark_congr hS hd ips hP dirs dirs' h1 h2
    rw [rounds, rounds]
    rw [e1, e2, e3, hS.2.2.2.1]
    cases newPointsNeeded S.pointsNeeded _ _ with
    | error f => rfl
    | ok n =>
      simp only [bind, Except.bind]
      have ha : addImmatures S' (call k n) = addImmatures S (call k n) := by unfold addImmatures; rw [hS.2.1]
      rw [ha]
      refine ih _ ?_ e e' g1 g2
      intro ip hip
      obtain ⟨p, hp, rfl⟩ := List.mem_map.1 hip
      exact hc k n p hp

/-- C155 for the spherical branch: two runs with the same frames give the same points, with the same states and depths,
whatever the orders of insertion, the tolerances and the order in which the sectors are stored. -/
theorem C155_spherical {S S' : Setup} (hL : Exact S.L) (hS : SameTask S S') {m0 m1 : Matched} (h0 : SphericalFrame S 0 m0)
    (h1 : SphericalFrame S 1 m1) (h0' : SphericalFrame S' 0 m0) (h1' : SphericalFrame S' 1 m1)
    {l l' : List IPoint × List IPoint} (h : createKeyFrames S false m0 m1 = .ok (some l))
    (h' : createKeyFrames S' false m0 m1 = .ok (some l')) : l = l' := by
  obtain ⟨l0, l1⟩ := l
  obtain ⟨l0', l1'⟩ := l'
  obtain ⟨i0, i1, t0, t1, k0, k1⟩ := spherical_inv h
  obtain ⟨i0', i1', t0', t1', k0', k1'⟩ := spherical_inv h'
  rw [construct_same hS, hS.2.2.2.2.1] at k0' k1'
  have hsp : ∀ m, spatial S' m = spatial S m := by intro m; unfold spatial; rw [hS.1]
  have key : ∀ (i : Nat) (m : Matched) (init init' : List Sector), SphericalFrame S i m → SphericalFrame S' i m →
      newSectors S.env S.arrange S.s (spatial S m) (S.order i) S.fuel = .ok (some init) →
      newSectors S'.env S'.arrange S'.s (spatial S' m) (S'.order i) S'.fuel = .ok (some init') →
      ∀ dirs dirs' dir, (∀ d ∈ dir :: dirs, OffPlanes (spatial S m) d) → (∀ d ∈ dir :: dirs', OffPlanes (spatial S m) d) →
      (sphericalDepth S.L (lookedUp S.L init dirs) dir).1 = (sphericalDepth S.L (lookedUp S.L init' dirs') dir).1 := by
    intro i m init init' f f' ht ht' dirs dirs' dir hd hd'
    obtain ⟨points, p1, p2, p3⟩ := f.general
    obtain ⟨points', q1, q2, q3⟩ := f'.general
    rw [hsp] at ht' q1
    rw [p1] at q1
    obtain rfl := Option.some.inj q1
    have off : ∀ d, OffPlanes (spatial S m) d → (∀ x ∈ init, OffSides x.r0 x.r1 x.r2 d) := by
      intro d hd x hx
      obtain ⟨f0, f1, f2⟩ := sector_rays f.env f.arrange f.nonzero p1 p2 p3 ht hx
      exact offSides_of_planes f0 f1 f2 (C153_regular f.env f.arrange f.nonzero p1 p2 p3 f.around ht x hx) hd
    have off' : ∀ d, OffPlanes (spatial S m) d → (∀ x ∈ init', OffSides x.r0 x.r1 x.r2 d) := by
      intro d hd x hx
      obtain ⟨f0, f1, f2⟩ := sector_rays f'.env f'.arrange f.nonzero p1 q2 q3 ht' hx
      exact offSides_of_planes f0 f1 f2 (C153_regular f'.env f'.arrange f.nonzero p1 q2 q3 f.around ht' x hx) hd
    exact C154_order_irrelevant hL f.env f.arrange f.nonzero p1 p2 p3 ht f'.env f'.arrange q2 q3 ht' f.around f.circle dirs
      dirs' (fun d hh => off d (hd d hh)) (fun d hh => off' d (hd' d hh))
  have run : ∀ (i : Nat) (m : Matched) (init init' : List Sector) (call : Nat → Int → List V2) (k : Nat),
      SphericalFrame S i m → SphericalFrame S' i m →
      newSectors S.env S.arrange S.s (spatial S m) (S.order i) S.fuel = .ok (some init) →
      newSectors S'.env S'.arrange S'.s (spatial S' m) (S'.order i) S'.fuel = .ok (some init') →
      (∀ k n, ∀ p ∈ call k n, ∃ k' n', p ∈ S.select k' n') →
      rounds S call k init (construct S i) = rounds S' call k init' (construct S i) := by
    intro i m init init' call k f f' ht ht' hc
    refine rounds_congr hS (key i m init init' f f' ht ht') call ?_ k (construct S i) ?_ [] [] (by simp) (by simp)
    · intro k n p hp
      obtain ⟨k', n', hp'⟩ := hc k n p hp
      exact f.off k' n' p hp'
    · intro ip hip
      exact f.off _ _ _ (construct_p hip)
  rw [← run 0 m0 i0 i0' _ _ h0 h0' t0 t0' (fun k n p hp => ⟨_, _, hp⟩), k0] at k0'
  rw [← run 1 m1 i1 i1' _ _ h1 h1' t1 t1' (fun k n p hp => ⟨_, _, hp⟩), k1] at k1'
  rw [Except.ok.inj k0', Except.ok.inj k1']

/-! ### Demonstration -/

/-- The terrain over the four key points, inserted in the given order. -/
noncomputable def quadSetup (L : Linear) (order : List Nat) : Setup where
  unmap := fun _ => axis
  onPatch := fun _ => true
  pointsNum := 5
  pointsNeeded := 7
  select := fun _ _ => [quadCentre.real]
  L := L
  env := demoEnv
  s := defaultSettings
  order := fun _ => order
  arrange := id
  walk := fun _ _ _ => true
  fuel := 100

noncomputable def quadMatched : Matched := ⟨quadPoints.map Q2.real, [1, 2, 3, 4]⟩

theorem axis_ne : axis ≠ 0 := fun hh => by simpa [axis] using congrArg V3.z hh

theorem quad_off : OffSegments defaultSettings (quadPoints.map Q2.real) quadCentre.real := by
  have hq := queryAt_real (positionQ quadPoints [0, 1, 2, 3]) (1 / 1000000000 * maxDimQ quadPoints) (by decide +kernel)
    quadCentre
  rw [← position_real] at hq
  have heps : ((1 / 1000000000 * maxDimQ quadPoints : ℚ) : ℝ) = defaultSettings.epsPointIsOnSegment *
      maxDim (quadPoints.map Q2.real) := by
    rw [maxDim_real, Rat.cast_mul]
    rfl
  rw [heps] at hq
  have ho : Shuffle (quadPoints.map Q2.real).length [0, 1, 2, 3] := by show [0, 1, 2, 3].Perm [0, 1, 2, 3]; decide
  have hm : ∀ a ∈ sites (quadPoints.map Q2.real), ∃ v < 7, a = position (quadPoints.map Q2.real) [0, 1, 2, 3] v := by
    intro a ha
    obtain ⟨i, hi⟩ := List.mem_iff_getElem?.1 ha
    have hlt : i < 7 := (List.getElem?_eq_some_iff.1 hi).1
    have := site_pos ho (v := i) hlt
    have e : siteOf [0, 1, 2, 3] i = i := by
      unfold siteOf
      interval_cases i <;> rfl
    rw [e, hi] at this
    exact ⟨i, hlt, Option.some.inj this⟩
  have hall : ∀ v < 7, ∀ w < 7, (queryQ (positionQ quadPoints [0, 1, 2, 3]) (1 / 1000000000 * maxDimQ quadPoints)
      quadCentre).onEdge v w = false := by decide +kernel
  intro a ha b hb
  obtain ⟨v, hv, rfl⟩ := hm a ha
  obtain ⟨w, hw, rfl⟩ := hm b hb
  have := hall v hv w hw
  rw [← hq] at this
  simpa [queryAt] using this

theorem quad_created {L : Linear} (hL : Exact L) (order : List Nat) (ho : order.Perm [0, 1, 2, 3])
    (hc : clearInner (Tri.construct demoEnv (predsQ (positionQ quadPoints order) (1 / 1000000000 * maxDimQ quadPoints)
      (1 / 1000000000 * maxDimQ quadPoints)) order 100) (queryQ (positionQ quadPoints order)
      (1 / 1000000000 * maxDimQ quadPoints) quadCentre) = true) :
    ∃ d, createKeyFrames (quadSetup L order) true quadMatched quadMatched = .ok (some
      ([IPoint.accept ⟨quadCentre.real, { Trace.new true with stddev := ((1 : ℝ) : WithTop ℝ) }⟩ d],
        [IPoint.accept ⟨quadCentre.real, { Trace.new true with stddev := ((1 : ℝ) : WithTop ℝ) }⟩ d])) := by
  obtain ⟨T, d, h1, -, h2⟩ := quad_terrain hL order ho hc
  refine ⟨d, ?_⟩
  have hm : markPlain (quadSetup L order) T (fun _ _ => true) 0
      [⟨quadCentre.real, { Trace.new true with stddev := ((1 : ℝ) : WithTop ℝ) }⟩] =
      .ok (some [IPoint.accept ⟨quadCentre.real, { Trace.new true with stddev := ((1 : ℝ) : WithTop ℝ) }⟩ d]) := by
    unfold markPlain markPlain
    simp only [bind, Except.bind]
    have : T.depthAt (quadSetup L order).L (quadSetup L order).env quadCentre.real (fun _ => true)
        (quadSetup L order).fuel = .ok (some (some d)) := h2
    rw [this]
  have hT : newTerrain (quadSetup L order).env (quadSetup L order).unmap (quadSetup L order).s quadMatched.keyPoints
    quadMatched.depths order (quadSetup L order).fuel = .ok (some T) := h1
  have hcon : ∀ i, construct (quadSetup L order) i =
    [⟨quadCentre.real, { Trace.new true with stddev := ((1 : ℝ) : WithTop ℝ) }⟩] := fun _ => rfl
  have hor : ∀ i, (quadSetup L order).order i = order := fun _ => rfl
  have hw : ∀ i, (quadSetup L order).walk i = fun _ _ => true := fun _ => rfl
  unfold createKeyFrames
  simp only [if_true, createPlain, hcon, hor, hw, bind, Except.bind]
  rw [hT]
  simp only
  rw [hm]

theorem quad_frame (L : Linear) (order : List Nat) (ho : order.Perm [0, 1, 2, 3]) (i : Nat) :
    PlainFrame (quadSetup L order) i quadMatched where
  env := demoEnv_lawful
  order := ho
  general := quad_general
  many := by decide
  circle := quad_noFour
  ray := fun _ _ => axis_ne
  off := by
    intro p hp
    obtain rfl := List.mem_singleton.1 hp
    exact quad_off

/-- The hypotheses of `C155_plain` are met. -/
example {L : Linear} (hL : Exact L) : ∃ l,
    createKeyFrames (quadSetup L [0, 1, 2, 3]) true quadMatched quadMatched = .ok (some l) ∧
    createKeyFrames (quadSetup L [3, 0, 2, 1]) true quadMatched quadMatched = .ok (some l) ∧
    ∃ ip ∈ l.1, ip.pt.state = .active ∧ ip.pt.depth ≠ none := by
  obtain ⟨d, h⟩ := quad_created hL [0, 1, 2, 3] (by decide) (by decide +kernel)
  obtain ⟨d', h'⟩ := quad_created hL [3, 0, 2, 1] (by decide) (by decide +kernel)
  have := C155_plain (S := quadSetup L [0, 1, 2, 3]) (S' := quadSetup L [3, 0, 2, 1]) hL ⟨rfl, rfl, rfl, rfl, rfl, rfl⟩
    (quad_frame L _ (by decide) 0) (quad_frame L _ (by decide) 1) (quad_frame L _ (by decide) 0) (quad_frame L _ (by decide) 1) h h'
  exact ⟨_, h, this ▸ h', _, List.mem_singleton_self _, rfl, by simp [IPoint.accept]⟩

/-- `sphereSetup` with the key points inserted in another order. -/
noncomputable def sphereSetup' (L : Linear) : Setup :=
  { sphereSetup L [⟨1, 1⟩] with order := fun _ => [3, 0, 2, 1] }

theorem sphere_off : OffPlanes sphereRays (lift ⟨1, 1⟩) := by
  intro i j a b hij ha hb
  have k1 : i < 4 := (List.getElem?_eq_some_iff.1 ha).1
  have k2 : j < 4 := (List.getElem?_eq_some_iff.1 hb).1
  interval_cases i <;> interval_cases j <;> first | exact absurd rfl hij | skip
  all_goals
    simp [sphereRays, spherePoints] at ha hb
    subst ha hb
    simp only [lift_real]
    unfold lift det3 V3.dot V3.cross
    norm_num

theorem sphere_frame (L : Linear) (order : List Nat) (ho : order.Perm [0, 1, 2, 3]) (i : Nat) :
    SphericalFrame { sphereSetup L [⟨1, 1⟩] with order := fun _ => order } i sphereMatched := by
  have hs : spatial { sphereSetup L [⟨1, 1⟩] with order := fun _ => order } sphereMatched = sphereRays :=
    spatial_sphere L [⟨1, 1⟩]
  refine ⟨demoEnv_lawful, fun _ => List.Perm.refl _, ?_, ?_, ?_, ?_, ?_⟩ <;> rw [hs]
  · exact sphere_nonzero
  · exact sphere_around
  · exact sphere_noFour
  · exact ⟨_, projectAll_lift _, ho, sphere_general⟩
  · intro k n p hp
    obtain rfl := List.mem_singleton.1 hp
    exact sphere_off

/-- The second run ends as well. -/
theorem sphere_created' {L : Linear} (hL : Exact L) : ∃ l,
    createKeyFrames (sphereSetup' L) false sphereMatched sphereMatched = .ok (some l) := by
  obtain ⟨l, h⟩ := sphere_created hL
  obtain ⟨l1, h⟩ := h
  obtain ⟨i0, i1, t0, t1, k0, k1⟩ := spherical_inv h
  have hs : spatial (sphereSetup L [⟨1, 1⟩]) sphereMatched = sphereRays := spatial_sphere L [⟨1, 1⟩]
  have hp : projectAll sphereRays = some (spherePoints.map Q2.real) := projectAll_lift _
  have ho : Shuffle (spherePoints.map Q2.real).length [0, 1, 2, 3] := by show [0, 1, 2, 3].Perm [0, 1, 2, 3]; decide
  have ho' : Shuffle (spherePoints.map Q2.real).length [3, 0, 2, 1] := by show [3, 0, 2, 1].Perm [0, 1, 2, 3]; decide
  have hid : Arrangement id := fun _ => List.Perm.refl _
  have e0 : i0 = [sectorA, sectorB] := by
    rw [hs] at t0
    exact Option.some.inj (Except.ok.inj (t0.symm.trans sphere_sectors))
  have e1 : i1 = [sectorA, sectorB] := by
    rw [hs] at t1
    exact Option.some.inj (Except.ok.inj (t1.symm.trans sphere_sectors))
  subst e0 e1
  have hd : ∀ dirs dirs' dir, (∀ d ∈ dir :: dirs, OffPlanes sphereRays d) → (∀ d ∈ dir :: dirs', OffPlanes sphereRays d) →
      (sphericalDepth L (lookedUp L [sectorA, sectorB] dirs) dir).1 =
        (sphericalDepth L (lookedUp L [sectorB', sectorA'] dirs') dir).1 := by
    intro dirs dirs' dir g g'
    refine C154_order_irrelevant hL demoEnv_lawful hid sphere_nonzero hp ho sphere_general sphere_sectors demoEnv_lawful hid ho'
      sphere_general sphere_sectors' sphere_around sphere_noFour dirs dirs' (fun d hh x hx => ?_) (fun d hh x hx => ?_)
    · obtain ⟨f0, f1, f2⟩ := sector_rays demoEnv_lawful hid sphere_nonzero hp ho sphere_general sphere_sectors hx
      exact offSides_of_planes f0 f1 f2 (C153_regular demoEnv_lawful hid sphere_nonzero hp ho sphere_general sphere_around
        sphere_sectors x hx) (g d hh)
    · obtain ⟨f0, f1, f2⟩ := sector_rays demoEnv_lawful hid sphere_nonzero hp ho' sphere_general sphere_sectors' hx
      exact offSides_of_planes f0 f1 f2 (C153_regular demoEnv_lawful hid sphere_nonzero hp ho' sphere_general sphere_around
        sphere_sectors' x hx) (g' d hh)
  have hsel : ∀ (f : Nat → Nat) (k : Nat) (n : Int), ∀ p ∈ (sphereSetup L [⟨1, 1⟩]).select (f k) n,
      OffPlanes sphereRays ((sphereSetup L [⟨1, 1⟩]).unmap p) := by
    intro f k n p hp
    obtain rfl := List.mem_singleton.1 hp
    exact sphere_off
  have hcon : ∀ i, ∀ ip ∈ construct (sphereSetup L [⟨1, 1⟩]) i, OffPlanes sphereRays ((sphereSetup L [⟨1, 1⟩]).unmap ip.p) :=
    fun i ip hip => hsel (fun _ => i) 0 _ _ (construct_p hip)
  have hS : SameTask (sphereSetup L [⟨1, 1⟩]) (sphereSetup' L) := ⟨rfl, rfl, rfl, rfl, rfl, rfl⟩
  have r0 := rounds_congr hS hd _ (hsel fun i => 2 + i) reselectCount _ (hcon 0) [] [] (by simp) (by simp)
  have r1 := rounds_congr hS hd _ (hsel fun i => 2 + reselectCount + i) reselectCount _ (hcon 1) [] [] (by simp) (by simp)
  have r0' := r0.symm.trans k0
  have r1' := r1.symm.trans k1
  have hlen : ¬ sphereMatched.depths.length < sphereMatched.keyPoints.length := by
    unfold sphereMatched; simp
  have hray : depthedRays (sphereSetup' L) sphereMatched = .ok sphereRays := by
    unfold depthedRays
    rw [if_neg hlen, ← hs]
    rfl
  have hns : ∀ i, newSectors (sphereSetup' L).env (sphereSetup' L).arrange (sphereSetup' L).s sphereRays
    ((sphereSetup' L).order i) (sphereSetup' L).fuel = .ok (some [sectorB', sectorA']) := fun _ => sphere_sectors'
  refine ⟨(l, l1), ?_⟩
  unfold createKeyFrames
  simp only [Bool.false_eq_true, if_false, createSpherical, hray, hns, bind, Except.bind]
  rw [construct_same hS, construct_same hS, hS.2.2.2.2.1]
  have z0 : rounds (sphereSetup' L) (fun i => (sphereSetup L [⟨1, 1⟩]).select (2 + i)) reselectCount [sectorB', sectorA']
    (construct (sphereSetup L [⟨1, 1⟩]) 0) = .ok l := r0'
  have z1 : rounds (sphereSetup' L) (fun i => (sphereSetup L [⟨1, 1⟩]).select (2 + reselectCount + i)) reselectCount
    [sectorB', sectorA'] (construct (sphereSetup L [⟨1, 1⟩]) 1) = .ok l1 := r1'
  rw [z0, z1]

/-- The hypotheses of `C155_spherical` are met. -/
example {L : Linear} (hL : Exact L) : ∃ l,
    createKeyFrames (sphereSetup L [⟨1, 1⟩]) false sphereMatched sphereMatched = .ok (some l) ∧
    createKeyFrames (sphereSetup' L) false sphereMatched sphereMatched = .ok (some l) ∧ l.1 ≠ [] := by
  obtain ⟨l0, l1, h⟩ := sphere_created hL
  obtain ⟨l', h'⟩ := sphere_created' hL
  have := C155_spherical (S := sphereSetup L [⟨1, 1⟩]) (S' := sphereSetup' L) hL ⟨rfl, rfl, rfl, rfl, rfl, rfl⟩
    (sphere_frame L [0, 1, 2, 3] (by decide) 0) (sphere_frame L [0, 1, 2, 3] (by decide) 1)
    (sphere_frame L [3, 0, 2, 1] (by decide) 0) (sphere_frame L [3, 0, 2, 1] (by decide) 1) h h'
  obtain ⟨-, -, -, -, -, -, n0, -⟩ := spherical_spec h
  exact ⟨_, h, this ▸ h', n0⟩

end Mdso.Init
