import Verif.Spec.Initializer
import Verif.Props.SphericalTerrain

/-!
# Properties of the first two keyframes
-/

set_option autoImplicit false

namespace Mdso.Init

open Mdso.Geom Mdso.Tri Mdso.Tri.Spec Mdso.Init.Spec

/-! ### One pass over the points -/

/-- The directions looked up for the points. -/
noncomputable def asked (S : Setup) : List IPoint → List V3
  | [] => []
  | ip :: ips => if ip.pt.state = .active then S.unmap ip.p :: asked S ips else asked S ips

/-- What the pass makes of the point `ip` when the terrain holds `st`. -/
noncomputable def verdict (S : Setup) (st : List Sector) (ip : IPoint) : IPoint :=
  if ip.pt.state = .active then
    match (sphericalDepth S.L st (S.unmap ip.p)).1 with
    | some d => ip.accept d
    | none => ip.reject
  else ip.reject

theorem mark_cons (S : Setup) (st : List Sector) (ip : IPoint) (ips : List IPoint) :
    markSpherical S st (ip :: ips) =
      (verdict S st ip :: (markSpherical S (lookedUp S.L st (asked S [ip])) ips).1,
        (markSpherical S (lookedUp S.L st (asked S [ip])) ips).2) := by
  rw [markSpherical]
  unfold verdict asked
  by_cases ha : ip.pt.state = .active
  · rw [if_pos ha, if_pos ha, if_pos ha]
    have : lookedUp S.L st (S.unmap ip.p :: asked S []) = (sphericalDepth S.L st (S.unmap ip.p)).2 := rfl
    rw [this]
    obtain ⟨r, hr⟩ : ∃ r, r = sphericalDepth S.L st (S.unmap ip.p) := ⟨_, rfl⟩
    rw [← hr]
    obtain ⟨o, st'⟩ := r
    cases o <;> rfl
  · rw [if_neg ha, if_neg ha, if_neg ha]
    rfl

theorem asked_append (S : Setup) (l l' : List IPoint) : asked S (l ++ l') = asked S l ++ asked S l' := by
  induction l with
  | nil => rfl
  | cons ip l ih =>
    rw [List.cons_append, asked, asked, ih]
    split <;> rfl

theorem lookedUp_append (L : Linear) (st : List Sector) (l l' : List V3) :
    lookedUp L st (l ++ l') = lookedUp L (lookedUp L st l) l' := by
  unfold lookedUp
  rw [List.foldl_append]

/-- The pass keeps every point, and decides about each one with the terrain as the earlier lookups have left it. -/
theorem mark_spec (S : Setup) (ips : List IPoint) (st : List Sector) :
    (markSpherical S st ips).2 = lookedUp S.L st (asked S ips) ∧
    (markSpherical S st ips).1.length = ips.length ∧
    ∀ (l : List IPoint) (ip : IPoint) (l' : List IPoint), ips = l ++ ip :: l' →
      (markSpherical S st ips).1[l.length]? = some (verdict S (lookedUp S.L st (asked S l)) ip) := by
  induction ips generalizing st with
  | nil =>
    refine ⟨rfl, rfl, fun l ip l' h => ?_⟩
    cases l <;> cases h
  | cons ip ips ih =>
    obtain ⟨h1, h2, h3⟩ := ih (lookedUp S.L st (asked S [ip]))
    rw [mark_cons]
    refine ⟨?_, ?_, ?_⟩
    · simp only
      rw [h1, ← lookedUp_append, ← asked_append]
      rfl
    · simp only [List.length_cons]
      rw [h2]
    · intro l x l' h
      cases l with
      | nil =>
        obtain ⟨rfl, rfl⟩ := List.cons.inj h
        rfl
      | cons y l =>
        obtain ⟨rfl, h'⟩ := List.cons.inj h
        have := h3 l x l' h'
        rw [← lookedUp_append, ← asked_append] at this
        exact this

theorem verdict_p (S : Setup) (st : List Sector) (ip : IPoint) : (verdict S st ip).p = ip.p := by
  unfold verdict
  split
  · split <;> rfl
  · rfl

theorem verdict_stddev (S : Setup) (st : List Sector) (ip : IPoint) : (verdict S st ip).pt.stddev = ip.pt.stddev := by
  unfold verdict
  split
  · split <;> rfl
  · rfl

/-- The points left active had been active, and the terrain has reported their depth. -/
theorem verdict_active {S : Setup} {st : List Sector} {ip : IPoint} (h : (verdict S st ip).pt.state = .active) :
    ip.pt.state = .active ∧ ∃ d, (sphericalDepth S.L st (S.unmap ip.p)).1 = some d ∧ verdict S st ip = ip.accept d := by
  unfold verdict at h ⊢
  by_cases ha : ip.pt.state = .active
  · rw [if_pos ha] at h ⊢
    refine ⟨ha, ?_⟩
    split at h
    · next d hd => exact ⟨d, hd, rfl⟩
    · cases h
  · rw [if_neg ha] at h
    cases h

theorem mark_map (S : Setup) (ips : List IPoint) (st : List Sector) :
    (markSpherical S st ips).1.map (·.p) = ips.map (·.p) := by
  induction ips generalizing st with
  | nil => rfl
  | cons ip ips ih =>
    rw [mark_cons]
    simp only [List.map_cons]
    rw [ih, verdict_p]

/-- Every point of the result comes from one of the given ones. -/
theorem mark_mem {S : Setup} {st : List Sector} {ips : List IPoint} {x : IPoint} (h : x ∈ (markSpherical S st ips).1) :
    ∃ ip ∈ ips, ∃ dirs, x = verdict S (lookedUp S.L st dirs) ip := by
  induction ips generalizing st with
  | nil => cases h
  | cons ip ips ih =>
    rw [mark_cons] at h
    rcases List.mem_cons.1 h with rfl | h
    · exact ⟨ip, List.mem_cons_self .., [], rfl⟩
    · obtain ⟨ip', h', dirs, hx⟩ := ih h
      refine ⟨ip', List.mem_cons_of_mem _ h', asked S [ip] ++ dirs, ?_⟩
      rw [lookedUp_append]
      exact hx

theorem erase_eq (ips : List IPoint) : eraseInactive ips = ips.filter fun ip => decide (ip.pt.state = .active) := by
  induction ips with
  | nil => rfl
  | cons ip ips ih =>
    rw [eraseInactive, List.filter_cons, ih]
    by_cases h : ip.pt.state = .active
    · rw [if_neg (not_not.2 h), if_pos (decide_eq_true h)]
    · rw [if_pos h, if_neg (by simpa using h)]

/-! ### The loop -/

/-- The points one pass over `ips` keeps. -/
noncomputable def kept (S : Setup) (st : List Sector) (ips : List IPoint) : List IPoint :=
  eraseInactive (markSpherical S st ips).1

theorem newPointsNeeded_pos {needed : Int} {total inTriang : Nat} {n : Int}
    (h : newPointsNeeded needed total inTriang = .ok n) : inTriang ≠ 0 := by
  unfold newPointsNeeded at h
  intro h0
  rw [if_pos h0] at h
  cases h

/-- The points left over are those of the last pass, which has gone over the points of the last selection. -/
theorem rounds_spec {S : Setup} {call : Nat → Int → List V2} {k : Nat} {st : List Sector} {ips l : List IPoint}
    (h : rounds S call k st ips = .ok l) : l ≠ [] ∧ ∃ dirs, ∃ last : List IPoint, l = kept S (lookedUp S.L st dirs) last ∧
      ((k = 0 ∧ last = ips) ∨ (0 < k ∧ ∃ n, last = addImmatures S (call 0 n))) := by
  induction k generalizing st ips with
  | zero =>
    rw [rounds] at h
    simp only [bind, Except.bind] at h
    split at h
    · cases h
    · next n hn =>
      obtain rfl := Except.ok.inj h
      exact ⟨fun h0 => newPointsNeeded_pos hn (List.length_eq_zero_iff.2 h0), [], ips, rfl, Or.inl ⟨rfl, rfl⟩⟩
  | succ k ih =>
    rw [rounds] at h
    simp only [bind, Except.bind] at h
    split at h
    · cases h
    · next n hn =>
      obtain ⟨h1, dirs, last, h2, h3⟩ := ih h
      rw [(mark_spec S ips st).1, ← lookedUp_append] at h2
      refine ⟨h1, _, last, h2, Or.inr ⟨Nat.succ_pos _, ?_⟩⟩
      rcases h3 with ⟨rfl, rfl⟩ | ⟨-, n', rfl⟩
      · exact ⟨n, rfl⟩
      · exact ⟨n', rfl⟩

theorem kept_spec {S : Setup} {init : List Sector} {dirs : List V3} {ps : List V2} {x : IPoint}
    (h : x ∈ kept S (lookedUp S.L init dirs) (addImmatures S ps)) :
    HasSphericalDepth S init x ∧ S.onPatch x.p = true ∧ x.pt.stddev = ⊤ := by
  unfold kept at h
  rw [erase_eq, List.mem_filter, decide_eq_true_eq] at h
  obtain ⟨hm, ha⟩ := h
  obtain ⟨ip, hip, dirs', rfl⟩ := mark_mem hm
  obtain ⟨p, -, rfl⟩ := List.mem_map.1 hip
  have hp : ∀ st, (verdict S st ⟨p, Trace.new (S.onPatch p)⟩).p = p := fun st => verdict_p S st _
  obtain ⟨h1, d, h2, h3⟩ := verdict_active ha
  refine ⟨⟨ha, d, dirs ++ dirs', ?_, ?_⟩, ?_, ?_⟩
  · rw [h3]; rfl
  · rw [hp, lookedUp_append]; exact h2
  · rw [hp]
    by_contra hc
    simp only [Trace.new] at h1
    rw [if_neg hc] at h1
    cases h1
  · rw [verdict_stddev]; rfl

theorem kept_sublist (S : Setup) (st : List Sector) (ps : List V2) :
    ((kept S st (addImmatures S ps)).map (·.p)).Sublist ps := by
  unfold kept
  rw [erase_eq]
  refine (List.Sublist.map _ List.filter_sublist).trans ?_
  rw [mark_map]
  unfold addImmatures
  rw [List.map_map]
  simp [Function.comp_def]

/-- What the spherical branch returns. -/
theorem spherical_spec {S : Setup} {m0 m1 : Matched} {l0 l1 : List IPoint}
    (h : createKeyFrames S false m0 m1 = .ok (some (l0, l1))) :
    ∃ init0 init1 : List Sector,
      newSectors S.env S.arrange S.s (spatial S m0) (S.order 0) S.fuel = .ok (some init0) ∧
      newSectors S.env S.arrange S.s (spatial S m1) (S.order 1) S.fuel = .ok (some init1) ∧
      (∀ ip ∈ l0, HasSphericalDepth S init0 ip ∧ S.onPatch ip.p = true) ∧
      (∀ ip ∈ l1, HasSphericalDepth S init1 ip ∧ S.onPatch ip.p = true) ∧
      l0 ≠ [] ∧ l1 ≠ [] ∧
      (∃ n dirs, (l0.map (·.p)).Sublist (S.select 2 n) ∧
        l0 = kept S (lookedUp S.L init0 dirs) (addImmatures S (S.select 2 n))) ∧
      (∃ n dirs, (l1.map (·.p)).Sublist (S.select 3 n) ∧
        l1 = kept S (lookedUp S.L init1 dirs) (addImmatures S (S.select 3 n))) := by
  unfold createKeyFrames at h
  simp only [Bool.false_eq_true, if_false, createSpherical, depthedRays] at h
  by_cases g0 : m0.depths.length < m0.keyPoints.length
  · rw [if_pos g0] at h; cases h
  rw [if_neg g0] at h
  by_cases g1 : m1.depths.length < m1.keyPoints.length
  · rw [if_pos g1] at h; cases h
  rw [if_neg g1] at h
  simp only [bind, Except.bind] at h
  split at h
  · cases h
  next o0 e0 =>
  cases o0 with
  | none => cases h
  | some init0 =>
    simp only at h
    split at h
    · cases h
    next o1 e1 =>
    cases o1 with
    | none => cases h
    | some init1 =>
      simp only at h
      split at h
      · cases h
      next l0' f0 =>
      split at h
      · cases h
      next l1' f1 =>
      obtain ⟨rfl, rfl⟩ := Prod.mk.inj (Option.some.inj (Except.ok.inj h))
      obtain ⟨n0, dirs0, last0, rfl, ⟨hk, -⟩ | ⟨-, k0, rfl⟩⟩ := rounds_spec f0
      · cases hk
      obtain ⟨n1, dirs1, last1, rfl, ⟨hk, -⟩ | ⟨-, k1, rfl⟩⟩ := rounds_spec f1
      · cases hk
      exact ⟨init0, init1, e0, e1, fun ip hip => ⟨(kept_spec hip).1, (kept_spec hip).2.1⟩,
        fun ip hip => ⟨(kept_spec hip).1, (kept_spec hip).2.1⟩, n0, n1,
        ⟨k0, dirs0, kept_sublist _ _ _, rfl⟩, ⟨k1, dirs1, kept_sublist _ _ _, rfl⟩⟩

/-- The points looked up when the terrain is asked for selected positions. -/
theorem asked_new (S : Setup) (ps : List V2) :
    asked S (addImmatures S ps) = (ps.filter fun p => S.onPatch p).map S.unmap := by
  induction ps with
  | nil => rfl
  | cons p ps ih =>
    have : addImmatures S (p :: ps) = ⟨p, Trace.new (S.onPatch p)⟩ :: addImmatures S ps := rfl
    rw [this, asked, ih, List.filter_cons]
    cases hp : S.onPatch p <;> simp [Trace.new]

/-- No point is lost: a selected point whose patch is on the picture and for which the terrain reports a depth when it is
asked for it, after some lookups and then those of the points before it, is kept. -/
theorem kept_complete {S : Setup} {st : List Sector} {before after : List V2} {p : V2} {d : ℝ} (hp : S.onPatch p = true)
    (hd : (sphericalDepth S.L (lookedUp S.L st ((before.filter fun p => S.onPatch p).map S.unmap)) (S.unmap p)).1 = some d) :
    ∃ ip ∈ kept S st (addImmatures S (before ++ p :: after)), ip.p = p ∧ ip.pt.depth = some d := by
  have hs := (mark_spec S (addImmatures S (before ++ p :: after)) st).2.2 (addImmatures S before)
    ⟨p, Trace.new (S.onPatch p)⟩ (addImmatures S after) (by unfold addImmatures; rw [List.map_append]; rfl)
  rw [asked_new] at hs
  have hv : verdict S (lookedUp S.L st ((before.filter fun p => S.onPatch p).map S.unmap)) ⟨p, Trace.new (S.onPatch p)⟩ =
      IPoint.accept ⟨p, Trace.new (S.onPatch p)⟩ d := by
    unfold verdict
    rw [if_pos (by simp [Trace.new, hp])]
    simp only [hd]
  rw [hv] at hs
  refine ⟨IPoint.accept ⟨p, Trace.new (S.onPatch p)⟩ d, ?_, rfl, rfl⟩
  unfold kept
  rw [erase_eq, List.mem_filter]
  exact ⟨List.mem_of_getElem? hs, rfl⟩

/-- C60 for the spherical branch, which is the default: if `createKeyFrames` ends normally, then for each of the two
keyframes a terrain has been built from its matched key points, every point of the keyframe is active and has the depth that
terrain reports for it, its patch is on the picture, the keyframe is not empty, and its points are some of those the pixel
selector has returned in the last selection for that keyframe, in their order: exactly those
whose patch is on the picture and for which the terrain, asked in that order, reports a depth. -/
theorem C60_spherical {S : Setup} {m0 m1 : Matched} {l0 l1 : List IPoint}
    (h : createKeyFrames S false m0 m1 = .ok (some (l0, l1))) :
    ∃ init0 init1 : List Sector,
      newSectors S.env S.arrange S.s (spatial S m0) (S.order 0) S.fuel = .ok (some init0) ∧
      newSectors S.env S.arrange S.s (spatial S m1) (S.order 1) S.fuel = .ok (some init1) ∧
      (∀ ip ∈ l0, HasSphericalDepth S init0 ip ∧ S.onPatch ip.p = true) ∧
      (∀ ip ∈ l1, HasSphericalDepth S init1 ip ∧ S.onPatch ip.p = true) ∧
      l0 ≠ [] ∧ l1 ≠ [] ∧
      (∃ n earlier, (l0.map (·.p)).Sublist (S.select 2 n) ∧ ∀ before p after, S.select 2 n = before ++ p :: after →
        S.onPatch p = true → (sphericalDepth S.L (lookedUp S.L init0
          (earlier ++ (before.filter fun p => S.onPatch p).map S.unmap)) (S.unmap p)).1 ≠ none → p ∈ l0.map (·.p)) ∧
      (∃ n earlier, (l1.map (·.p)).Sublist (S.select 3 n) ∧ ∀ before p after, S.select 3 n = before ++ p :: after →
        S.onPatch p = true → (sphericalDepth S.L (lookedUp S.L init1
          (earlier ++ (before.filter fun p => S.onPatch p).map S.unmap)) (S.unmap p)).1 ≠ none → p ∈ l1.map (·.p)) := by
  obtain ⟨init0, init1, e0, e1, g0, g1, n0, n1, ⟨k0, d0, s0, q0⟩, ⟨k1, d1, s1, q1⟩⟩ := spherical_spec h
  refine ⟨init0, init1, e0, e1, g0, g1, n0, n1, ⟨k0, d0, s0, ?_⟩, ⟨k1, d1, s1, ?_⟩⟩
  · intro before p after hsel hp hd
    obtain ⟨d, hd⟩ := Option.ne_none_iff_exists'.1 hd
    rw [lookedUp_append] at hd
    obtain ⟨ip, hip, hpp, -⟩ := kept_complete (after := after) hp hd
    rw [← hsel, ← q0] at hip
    exact List.mem_map.2 ⟨ip, hip, hpp⟩
  · intro before p after hsel hp hd
    obtain ⟨d, hd⟩ := Option.ne_none_iff_exists'.1 hd
    rw [lookedUp_append] at hd
    obtain ⟨ip, hip, hpp, -⟩ := kept_complete (after := after) hp hd
    rw [← hsel, ← q1] at hip
    exact List.mem_map.2 ⟨ip, hip, hpp⟩

/-- C60, what the depth means: when Eigen is exact and the triangulation has no three key points in a plane with the camera,
the depth is positive and the point in space it gives lies on the flat triangle between three of the matched key points. -/
theorem depth_on_triangle {S : Setup} (hL : Exact S.L) (ha : Arrangement S.arrange) {m : Matched} {order : List Nat}
    {init : List Sector} (h : newSectors S.env S.arrange S.s (spatial S m) order S.fuel = .ok (some init))
    (hreg : ∀ x ∈ init, det3 x.r0 x.r1 x.r2 ≠ 0) {ip : IPoint} (h0 : S.unmap ip.p ≠ 0)
    (hip : HasSphericalDepth S init ip) : ∃ d, ip.pt.depth = some d ∧ 0 < d ∧ ∃ r : Fin 3 → V3,
      (∀ j, r j ∈ spatial S m) ∧ OnTriangle (r 0) (r 1) (r 2) (d • (S.unmap ip.p).normalized) := by
  obtain ⟨-, d, dirs, hd, hs⟩ := hip
  obtain ⟨h1, _, _, _, _, -, -, -, i, r, hr, ht⟩ := C58_spherical_partial hL ha h hreg dirs h0 hs
  refine ⟨d, hd, h1, r, fun j => List.mem_of_getElem? (hr j).2, ?_⟩
  rw [V3.normalized_eq h0]
  have : d • (1 / (S.unmap ip.p).norm) • S.unmap ip.p = (d / (S.unmap ip.p).norm) • S.unmap ip.p := by
    ext <;> simp <;> ring
  rw [this]
  exact ht

theorem C60_spherical_geometry {S : Setup} (hL : Exact S.L) (ha : Arrangement S.arrange) (hu : ∀ p, S.unmap p ≠ 0)
    {m0 m1 : Matched} {l0 l1 : List IPoint} (h : createKeyFrames S false m0 m1 = .ok (some (l0, l1)))
    (hreg : ∀ m ∈ [(m0, S.order 0), (m1, S.order 1)], ∀ init,
      newSectors S.env S.arrange S.s (spatial S m.1) m.2 S.fuel = .ok (some init) →
      ∀ x ∈ init, det3 x.r0 x.r1 x.r2 ≠ 0) :
    ∀ ml ∈ [(m0, l0), (m1, l1)], ∀ ip ∈ ml.2, ip.pt.state = .active ∧ ∃ d, ip.pt.depth = some d ∧ 0 < d ∧
      ∃ r : Fin 3 → V3, (∀ j, r j ∈ spatial S ml.1) ∧ OnTriangle (r 0) (r 1) (r 2) (d • (S.unmap ip.p).normalized) := by
  obtain ⟨init0, init1, e0, e1, g0, g1, -⟩ := spherical_spec h
  intro ml hml ip hip
  rcases List.mem_cons.1 hml with rfl | hml
  · exact ⟨(g0 ip hip).1.1, depth_on_triangle hL ha e0 (hreg (m0, S.order 0) (by simp) _ e0) (hu _) (g0 ip hip).1⟩
  · rw [List.mem_singleton] at hml
    subst hml
    exact ⟨(g1 ip hip).1.1, depth_on_triangle hL ha e1 (hreg (m1, S.order 1) (by simp) _ e1) (hu _) (g1 ip hip).1⟩

/-! ### The spherical branch gives up the uncertainty -/

/-- C90 is violated in the spherical branch: `createKeyFrames` gives every point of the keyframes the standard deviation 1
when it has built them, but all points it returns are those of a later selection, and their standard deviation is infinite. -/
theorem C90_violated {S : Setup} {m0 m1 : Matched} {l0 l1 : List IPoint}
    (h : createKeyFrames S false m0 m1 = .ok (some (l0, l1))) :
    (∀ ip ∈ l0, ip.pt.stddev = ⊤) ∧ (∀ ip ∈ l1, ip.pt.stddev = ⊤) ∧ l0 ≠ [] ∧ l1 ≠ [] := by
  obtain ⟨init0, init1, e0, e1, g0, g1, n0, n1, ⟨k0, d0, s0, q0⟩, ⟨k1, d1, s1, q1⟩⟩ := spherical_spec h
  refine ⟨fun ip hip => ?_, fun ip hip => ?_, n0, n1⟩
  · rw [q0] at hip; exact (kept_spec hip).2.2
  · rw [q1] at hip; exact (kept_spec hip).2.2

/-- C60 is violated in the spherical branch if no point of the first selection has a depth, for instance in a picture without
texture: the number of points to select is then computed by a division by zero and the result converted to an integer. -/
theorem C60_no_points_violated {S : Setup} {m0 m1 : Matched} {init0 init1 : List Sector}
    (hl0 : m0.keyPoints.length ≤ m0.depths.length) (hl1 : m1.keyPoints.length ≤ m1.depths.length)
    (h0 : newSectors S.env S.arrange S.s (spatial S m0) (S.order 0) S.fuel = .ok (some init0))
    (h1 : newSectors S.env S.arrange S.s (spatial S m1) (S.order 1) S.fuel = .ok (some init1))
    (hnone : ∀ p ∈ S.select 0 S.pointsNum, S.onPatch p = true → ∀ s ∈ init0, inSector S.L (S.unmap p) s = false) :
    createKeyFrames S false m0 m1 = .error .ub := by
  have hk : kept S init0 (construct S 0) = [] := by
    rw [List.eq_nil_iff_forall_not_mem]
    intro x hx
    unfold kept at hx
    rw [erase_eq, List.mem_filter, decide_eq_true_eq] at hx
    obtain ⟨ip, hip, dirs, rfl⟩ := mark_mem hx.1
    obtain ⟨ha, d, hd, -⟩ := verdict_active hx.2
    obtain ⟨ip', hip', rfl⟩ := List.mem_map.1 hip
    obtain ⟨p, hp, rfl⟩ := List.mem_map.1 hip'
    have hon : S.onPatch p = true := by
      by_contra hc
      simp only [Trace.new] at ha
      rw [if_neg hc] at ha
      cases ha
    have : (sphericalDepth S.L (lookedUp S.L init0 dirs) (S.unmap p)).1 = none :=
      depth_none.2 fun s hs => hnone p hp hon s ((lookedUp_sublist S.L dirs init0).subset hs)
    simp only at hd
    rw [this] at hd
    cases hd
  unfold createKeyFrames
  simp only [Bool.false_eq_true, if_false, createSpherical, depthedRays]
  rw [if_neg (by omega), if_neg (by omega)]
  simp only [bind, Except.bind]
  have h0' : newSectors S.env S.arrange S.s (List.map (fun pd => pd.2 • (S.unmap pd.1).normalized)
    (m0.keyPoints.zip m0.depths)) (S.order 0) S.fuel = .ok (some init0) := h0
  have h1' : newSectors S.env S.arrange S.s (List.map (fun pd => pd.2 • (S.unmap pd.1).normalized)
    (m1.keyPoints.zip m1.depths)) (S.order 1) S.fuel = .ok (some init1) := h1
  rw [h0']
  simp only
  rw [h1']
  simp only [reselectCount, rounds]
  unfold kept at hk
  rw [hk]
  rfl

/-! ### The plain branch -/

theorem markPlain_spec {S : Setup} {T : Terrain} {walk : Nat → Nat → Bool} {n : Nat} {ips l : List IPoint}
    (h : markPlain S T walk n ips = .ok (some l)) : l.map (·.p) = ips.map (·.p) ∧
      l.map (·.pt.stddev) = ips.map (·.pt.stddev) ∧ ∀ ip ∈ l, HasPlainDepth S T ip ∨
        (ip.pt.state = .oob ∧ (∃ coin, T.depthAt S.L S.env ip.p coin S.fuel = .ok (some none)) ∧
          ∃ old ∈ ips, ip.pt.depth = old.pt.depth) := by
  induction ips generalizing n l with
  | nil =>
    obtain rfl := Option.some.inj (Except.ok.inj h)
    exact ⟨rfl, rfl, fun ip hip => by cases hip⟩
  | cons ip ips ih =>
    rw [markPlain] at h
    simp only [bind, Except.bind] at h
    split at h
    · cases h
    next o ho =>
    cases o with
    | none => cases h
    | some o =>
      simp only at h
      split at h
      · cases h
      next o' ho' =>
      cases o' with
      | none => cases h
      | some l' =>
        simp only at h
        obtain rfl := Option.some.inj (Except.ok.inj h)
        obtain ⟨h1, h2, h3⟩ := ih ho'
        refine ⟨?_, ?_, ?_⟩
        · rw [List.map_cons, List.map_cons, h1]
          cases o <;> rfl
        · rw [List.map_cons, List.map_cons, h2]
          cases o <;> rfl
        · intro x hx
          rcases List.mem_cons.1 hx with rfl | hx
          · cases o with
            | some d => exact Or.inl ⟨rfl, d, walk n, rfl, ho⟩
            | none => exact Or.inr ⟨rfl, ⟨walk n, ho⟩, ip, List.mem_cons_self .., rfl⟩
          · rcases h3 x hx with h | ⟨a, b, old, hold, c⟩
            · exact Or.inl h
            · exact Or.inr ⟨a, b, old, List.mem_cons_of_mem _ hold, c⟩

/-- C60 and C90 for the plain branch, as far as they hold: the keyframes hold all points the pixel selector has returned, with
the standard deviation 1; each is either active with the depth reported by the terrain built from the matched key points of
its keyframe, or out of bounds because that terrain has reported none. Missing: points without a depth are not removed. -/
theorem C60_plain_partial {S : Setup} {m0 m1 : Matched} {l0 l1 : List IPoint}
    (h : createKeyFrames S true m0 m1 = .ok (some (l0, l1))) :
    ∃ T0 T1 : Terrain,
      newTerrain S.env S.unmap S.s m0.keyPoints m0.depths (S.order 0) S.fuel = .ok (some T0) ∧
      newTerrain S.env S.unmap S.s m1.keyPoints m1.depths (S.order 1) S.fuel = .ok (some T1) ∧
      l0.map (·.p) = S.select 0 S.pointsNum ∧ l1.map (·.p) = S.select 1 S.pointsNum ∧
      (∀ ip ∈ l0, ip.pt.stddev = ((1 : ℝ) : WithTop ℝ) ∧ (HasPlainDepth S T0 ip ∨ (ip.pt.state = .oob ∧
        ip.pt.depth = none ∧ ∃ coin, T0.depthAt S.L S.env ip.p coin S.fuel = .ok (some none)))) ∧
      (∀ ip ∈ l1, ip.pt.stddev = ((1 : ℝ) : WithTop ℝ) ∧ (HasPlainDepth S T1 ip ∨ (ip.pt.state = .oob ∧
        ip.pt.depth = none ∧ ∃ coin, T1.depthAt S.L S.env ip.p coin S.fuel = .ok (some none)))) := by
  unfold createKeyFrames at h
  simp only [if_true, createPlain, bind, Except.bind] at h
  split at h
  · cases h
  next o0 e0 =>
  cases o0 with
  | none => cases h
  | some T0 =>
    simp only at h
    split at h
    · cases h
    next o1 e1 =>
    cases o1 with
    | none => cases h
    | some T1 =>
      simp only at h
      split at h
      · cases h
      next p0 f0 =>
      cases p0 with
      | none => cases h
      | some l0' =>
        simp only at h
        split at h
        · cases h
        next p1 f1 =>
        cases p1 with
        | none => cases h
        | some l1' =>
          obtain ⟨rfl, rfl⟩ := Prod.mk.inj (Option.some.inj (Except.ok.inj h))
          have hp : ∀ i, (construct S i).map (·.p) = S.select i S.pointsNum := by
            intro i
            unfold construct addImmatures
            simp [Function.comp_def]
          have hstd : ∀ i, ∀ x ∈ (construct S i).map (·.pt.stddev), x = ((1 : ℝ) : WithTop ℝ) := by
            intro i x hx
            unfold construct at hx
            rw [List.map_map] at hx
            obtain ⟨ip, -, rfl⟩ := List.mem_map.1 hx
            rfl
          have hdep : ∀ i, ∀ x ∈ construct S i, x.pt.depth = none := by
            intro i x hx
            obtain ⟨y, hy, rfl⟩ := List.mem_map.1 hx
            obtain ⟨p, -, rfl⟩ := List.mem_map.1 hy
            rfl
          obtain ⟨a0, b0, c0⟩ := markPlain_spec f0
          obtain ⟨a1, b1, c1⟩ := markPlain_spec f1
          refine ⟨T0, T1, e0, e1, a0.trans (hp 0), a1.trans (hp 1), fun ip hip => ⟨?_, ?_⟩, fun ip hip => ⟨?_, ?_⟩⟩
          · exact hstd 0 _ (b0 ▸ List.mem_map.2 ⟨ip, hip, rfl⟩)
          · rcases c0 ip hip with h | ⟨x, y, old, hold, z⟩
            · exact Or.inl h
            · exact Or.inr ⟨x, z.trans (hdep 0 old hold), y⟩
          · exact hstd 1 _ (b1 ▸ List.mem_map.2 ⟨ip, hip, rfl⟩)
          · rcases c1 ip hip with h | ⟨x, y, old, hold, z⟩
            · exact Or.inl h
            · exact Or.inr ⟨x, z.trans (hdep 1 old hold), y⟩

/-- A setting for the plain branch: three key points and a selected point, at one of them, that the walk does not find. -/
noncomputable def plainSetup (L : Linear) (p : V2) (coin : Nat → Bool) : Setup where
  unmap := fun _ => axis
  onPatch := fun _ => true
  pointsNum := 2
  pointsNeeded := 2
  select := fun _ _ => [p]
  L := L
  env := demoEnv
  s := defaultSettings
  order := fun _ => [2, 0, 1]
  arrange := id
  walk := fun _ _ => coin
  fuel := 100

/-- The key points of that setting. -/
noncomputable def plainMatched : Matched := ⟨demoPoints.map Q2.real, [1, 2, 3]⟩

/-- C60 is violated in the plain branch: keyframes are returned with a point that is not active and has no depth. -/
theorem C60_plain_violated {L : Linear} (hL : Exact L) : ∃ (S : Setup) (m0 m1 : Matched) (l0 l1 : List IPoint), S.L = L ∧
    createKeyFrames S true m0 m1 = .ok (some (l0, l1)) ∧
    (∃ ip ∈ l0, ip.pt.state ≠ .active ∧ ip.pt.depth = none) ∧ ∃ ip ∈ l1, ip.pt.state ≠ .active ∧ ip.pt.depth = none := by
  obtain ⟨T, p, -, coin, hT, -, -, hn⟩ := C58_plain_vertex_violated hL
  refine ⟨plainSetup L p coin, plainMatched, plainMatched, [IPoint.reject ⟨p, { Trace.new true with stddev := ((1 : ℝ) : WithTop ℝ) }⟩],
    [IPoint.reject ⟨p, { Trace.new true with stddev := ((1 : ℝ) : WithTop ℝ) }⟩], rfl, ?_, ?_, ?_⟩
  · have hT' : newTerrain (plainSetup L p coin).env (plainSetup L p coin).unmap (plainSetup L p coin).s plainMatched.keyPoints
        plainMatched.depths [2, 0, 1] (plainSetup L p coin).fuel = .ok (some T) := hT
    have hm : markPlain (plainSetup L p coin) T (fun _ => coin) 0
        [⟨p, { Trace.new true with stddev := ((1 : ℝ) : WithTop ℝ) }⟩] =
        .ok (some [IPoint.reject ⟨p, { Trace.new true with stddev := ((1 : ℝ) : WithTop ℝ) }⟩]) := by
      rw [markPlain]
      have hn' : T.depthAt (plainSetup L p coin).L (plainSetup L p coin).env p coin (plainSetup L p coin).fuel =
        .ok (some none) := hn
      simp only [hn']
      rfl
    have hc : ∀ i, construct (plainSetup L p coin) i = [⟨p, { Trace.new true with stddev := ((1 : ℝ) : WithTop ℝ) }⟩] :=
      fun _ => rfl
    unfold createKeyFrames
    simp only [if_true, createPlain, hc]
    have ho : ∀ i, (plainSetup L p coin).order i = [2, 0, 1] := fun _ => rfl
    have hw : ∀ i, (plainSetup L p coin).walk i = fun _ => coin := fun _ => rfl
    simp only [ho, hw, bind, Except.bind]
    rw [hT']
    simp only
    rw [hm]
  · exact ⟨_, List.mem_singleton_self _, fun h => (by cases h), rfl⟩
  · exact ⟨_, List.mem_singleton_self _, fun h => (by cases h), rfl⟩

/-! ### A case for the spherical branch -/

/-- Four key points around the axis, and a selected point between three of them. -/
noncomputable def sphereSetup (L : Linear) (chosen : List V2) : Setup where
  unmap := lift
  onPatch := fun _ => true
  pointsNum := 5
  pointsNeeded := 7
  select := fun _ _ => chosen
  L := L
  env := demoEnv
  s := defaultSettings
  order := fun _ => [0, 1, 2, 3]
  arrange := id
  walk := fun _ _ _ => true
  fuel := 100

/-- The key points with the norms of their rays as depths. -/
noncomputable def sphereMatched : Matched :=
  ⟨spherePoints.map Q2.real, (spherePoints.map Q2.real).map fun p => (lift p).norm⟩

theorem lift_ne (p : V2) : lift p ≠ 0 := by
  intro h
  have hx := congrArg V3.x h
  have hy := congrArg V3.y h
  have hz := congrArg V3.z h
  unfold lift at hx hy hz
  simp at hx hy hz
  simp [sqNorm, hx, hy] at hz

theorem spatial_sphere (L : Linear) (chosen : List V2) : spatial (sphereSetup L chosen) sphereMatched = sphereRays := by
  unfold spatial sphereRays sphereMatched
  simp only
  generalize spherePoints.map Q2.real = l
  induction l with
  | nil => rfl
  | cons p l ih =>
    simp only [List.map_cons, List.zip_cons_cons]
    rw [ih]
    congr 1
    show (lift p).norm • (lift p).normalized = lift p
    have hn := (V3.norm_pos (lift_ne p)).ne'
    rw [V3.normalized_eq (lift_ne p)]
    ext <;> simp <;> field_simp

/-- The hypotheses of `C60_spherical`, `C60_spherical_geometry` and `C90_violated` are met. -/
theorem sphere_created {L : Linear} (hL : Exact L) : ∃ l0 l1,
    createKeyFrames (sphereSetup L [⟨1, 1⟩]) false sphereMatched sphereMatched = .ok (some (l0, l1)) := by
  have hA : inSector L (lift ⟨1, 1⟩) sectorA = true :=
    (inSector_cone hL sectorA_regular).2 ⟨9 / 10, 1 / 5, 2 / 5, by norm_num, by norm_num, by norm_num, by
      unfold sectorA lift; ext <;> simp [sqNorm] <;> norm_num⟩
  have hB : inSector L (lift ⟨1, 1⟩) sectorB = false := by
    rw [← Bool.not_eq_true, inSector_cone hL sectorB_regular]
    rintro ⟨x, y, z, h1, h2, h3, h⟩
    have hx := congrArg V3.x h
    have hy := congrArg V3.y h
    unfold sectorB lift at hx hy
    simp at hx hy
    nlinarith
  obtain ⟨d, hd⟩ : ∃ d, sphericalDepth L [sectorA, sectorB] (lift ⟨1, 1⟩) = (some d, [sectorA, sectorB]) := by
    unfold sphericalDepth enclosingSector
    simp [hA, hB]
  have hr : ∀ call : Nat → Int → List V2, call 0 7 = [⟨1, 1⟩] → ∀ ip : IPoint, ip.pt.state = .active → ip.p = ⟨1, 1⟩ →
      ∃ l, rounds (sphereSetup L [⟨1, 1⟩]) call 1 [sectorA, sectorB] [ip] = .ok l := by
    intro call hcall ip ha hp
    have hm : ∀ ip : IPoint, ip.pt.state = .active → ip.p = ⟨1, 1⟩ →
        markSpherical (sphereSetup L [⟨1, 1⟩]) [sectorA, sectorB] [ip] = ([ip.accept d], [sectorA, sectorB]) := by
      intro ip ha hp
      rw [markSpherical, if_pos ha]
      have : sphericalDepth (sphereSetup L [⟨1, 1⟩]).L [sectorA, sectorB] ((sphereSetup L [⟨1, 1⟩]).unmap ip.p) =
        (some d, [sectorA, sectorB]) := by rw [hp]; exact hd
      rw [this]
      rfl
    have hn : newPointsNeeded 7 1 1 = .ok 7 := by decide +kernel
    have he : ∀ ip : IPoint, eraseInactive [ip.accept d] = [ip.accept d] := fun _ => rfl
    refine ⟨[IPoint.accept ⟨⟨1, 1⟩, Trace.new true⟩ d], ?_⟩
    rw [rounds, hm ip ha hp]
    simp only [he, List.length_singleton, bind, Except.bind]
    have hpn : (sphereSetup L [⟨1, 1⟩]).pointsNeeded = 7 := rfl
    rw [hpn, hn]
    simp only
    rw [hcall]
    have hadd : addImmatures (sphereSetup L [⟨1, 1⟩]) [⟨1, 1⟩] = [⟨⟨1, 1⟩, Trace.new true⟩] := rfl
    rw [hadd, rounds, hm _ rfl rfl]
    simp only [he, List.length_singleton, bind, Except.bind, hpn, hn]
  unfold createKeyFrames
  simp only [Bool.false_eq_true, if_false, createSpherical, depthedRays]
  have hlen : ¬ sphereMatched.depths.length < sphereMatched.keyPoints.length := by
    unfold sphereMatched; simp
  have hs : newSectors (sphereSetup L [⟨1, 1⟩]).env (sphereSetup L [⟨1, 1⟩]).arrange (sphereSetup L [⟨1, 1⟩]).s
      (spatial (sphereSetup L [⟨1, 1⟩]) sphereMatched) [0, 1, 2, 3] (sphereSetup L [⟨1, 1⟩]).fuel =
      .ok (some [sectorA, sectorB]) := by
    rw [spatial_sphere]; exact sphere_sectors
  unfold spatial at hs
  have ho : ∀ i, (sphereSetup L [⟨1, 1⟩]).order i = [0, 1, 2, 3] := fun _ => rfl
  rw [if_neg hlen]
  simp only [bind, Except.bind, ho]
  rw [hs]
  simp only
  have hc : ∀ i, construct (sphereSetup L [⟨1, 1⟩]) i =
    [⟨⟨1, 1⟩, { Trace.new true with stddev := ((1 : ℝ) : WithTop ℝ) }⟩] := fun _ => rfl
  simp only [hc, reselectCount]
  obtain ⟨l0, h0⟩ := hr (fun i => (sphereSetup L [⟨1, 1⟩]).select (2 + i)) rfl
    ⟨⟨1, 1⟩, { Trace.new true with stddev := ((1 : ℝ) : WithTop ℝ) }⟩ rfl rfl
  obtain ⟨l1, h1⟩ := hr (fun i => (sphereSetup L [⟨1, 1⟩]).select (2 + 1 + i)) rfl
    ⟨⟨1, 1⟩, { Trace.new true with stddev := ((1 : ℝ) : WithTop ℝ) }⟩ rfl rfl
  rw [h0]
  simp only
  rw [h1]
  exact ⟨l0, l1, rfl⟩

/-- `C60_no_points_violated` for the same key points and a selector that finds nothing. -/
theorem C60_no_points_demo (L : Linear) :
    createKeyFrames (sphereSetup L []) false sphereMatched sphereMatched = .error .ub := by
  have hs : newSectors (sphereSetup L []).env (sphereSetup L []).arrange (sphereSetup L []).s
      (spatial (sphereSetup L []) sphereMatched) [0, 1, 2, 3] (sphereSetup L []).fuel = .ok (some [sectorA, sectorB]) := by
    rw [spatial_sphere]; exact sphere_sectors
  exact C60_no_points_violated (by unfold sphereMatched; simp) (by unfold sphereMatched; simp) hs hs
    (fun p hp => (by cases hp))

/-- `C60_spherical_geometry` and `C90_violated` for the case above. -/
example {L : Linear} (hL : Exact L) : ∃ l0 l1,
    createKeyFrames (sphereSetup L [⟨1, 1⟩]) false sphereMatched sphereMatched = .ok (some (l0, l1)) ∧
    (∃ ip ∈ l0, ip.pt.state = .active ∧ ip.pt.stddev = ⊤ ∧ ∃ d, ip.pt.depth = some d ∧ 0 < d) := by
  obtain ⟨l0, l1, h⟩ := sphere_created hL
  refine ⟨l0, l1, h, ?_⟩
  obtain ⟨hst, -, hne, -⟩ := C90_violated h
  obtain ⟨ip, hip⟩ := List.exists_mem_of_ne_nil l0 hne
  have hreg : ∀ x ∈ [sectorA, sectorB], det3 x.r0 x.r1 x.r2 ≠ 0 := by
    intro x hx
    rcases List.mem_cons.1 hx with rfl | hx
    · exact sectorA_regular
    · rw [List.mem_singleton] at hx; subst hx; exact sectorB_regular
  have hs : newSectors (sphereSetup L [⟨1, 1⟩]).env (sphereSetup L [⟨1, 1⟩]).arrange (sphereSetup L [⟨1, 1⟩]).s
      (spatial (sphereSetup L [⟨1, 1⟩]) sphereMatched) [0, 1, 2, 3] (sphereSetup L [⟨1, 1⟩]).fuel =
      .ok (some [sectorA, sectorB]) := by
    rw [spatial_sphere]; exact sphere_sectors
  have hg := C60_spherical_geometry (S := sphereSetup L [⟨1, 1⟩]) hL (fun _ => List.Perm.refl _) lift_ne h (by
    intro m hm init hinit
    have e : m = (sphereMatched, [0, 1, 2, 3]) := by
      rcases List.mem_cons.1 hm with rfl | hm
      · rfl
      · exact List.mem_singleton.1 hm
    subst e
    have := hs.symm.trans hinit
    obtain rfl := Option.some.inj (Except.ok.inj this)
    exact hreg) (sphereMatched, l0) (by simp) ip hip
  obtain ⟨ha, d, hd, hpos, -⟩ := hg
  exact ⟨ip, hip, ha, hst ip hip, d, hd, hpos⟩

end Mdso.Init
