import Verif.Props.Frame2

/-!
# Properties of new frames and of keyframes that exchange their points (C145, C146)
-/

set_option autoImplicit false

namespace Mdso.Frame

open Mdso.Geom

/-- **C144, choosing again.** Choosing the points of a keyframe again, whatever points it had, gives the keyframe that would be made anew with the number of points
asked for, from the same state of the selector. -/
theorem C144_again (fuel : Nat) (shuffle : Nat → List PixSel.Pt → List PixSel.Pt) (c : Cam.Cam) (pattern : List V2) (height : Int) (sel : PixSel.Settings ℝ)
    (st : PixSel.State) (num : Nat) (kf : KeyFrame) :
    selectPointsDenser fuel shuffle c pattern height sel st num kf = newKeyFrame fuel shuffle c pattern height sel st num kf.pre := rfl

/-! ## C145: optimized points turned into candidates and back -/

theorem deactivate_ok {c : Cam.Cam} {pattern : List V2} {height : Int} {f : PreFrame} : ∀ (ops : List OptPoint) (ips : List ImPoint),
    deactivateEach c pattern height f ops = .ok ips →
    ips.map (fun ip => (ip.p, ip.state.depth)) = ops.map (fun op => (op.p, op.logInvDepth.map fun l => Real.exp (-l))) ∧
    ∀ ip ∈ ips, ip.state.stddev = ⊤ ∧ ip.state.maxDepth = ⊤ ∧ ip.state.numTraced = 0 ∧ (ip.state.state = .active ↔ Cam.isOnImage c ip.p height)
  | [], ips, h => by
    simp only [deactivateEach, Except.ok.injEq] at h
    subst h
    exact ⟨rfl, by simp⟩
  | op :: ops, ips, h => by
    rw [deactivateEach] at h
    cases h1 : newPoint c pattern height f op.p with
    | error e => rw [h1] at h; cases h
    | ok ip =>
      cases h2 : deactivateEach c pattern height f ops with
      | error e =>
        simp only [h1, h2, bind, Except.bind] at h
        cases h
      | ok rest =>
        simp only [h1, h2, bind, Except.bind] at h
        injection h with h
        subst h
        obtain ⟨a1, a2, a3⟩ := newPoint_ok h1
        obtain ⟨b1, b2⟩ := deactivate_ok ops rest h2
        refine ⟨by simp [a1, b1], ?_⟩
        intro ip' hip
        rcases List.mem_cons.1 hip with rfl | hip
        · dsimp only
          by_cases hon : Cam.isOnImage c op.p height
          · rw [a2 hon, a1]
            exact ⟨rfl, rfl, rfl, fun _ => hon, fun _ => rfl⟩
          · rw [a3 hon, a1]
            exact ⟨rfl, rfl, rfl, fun h => absurd h (by simp [Trace.new]), fun h => absurd h hon⟩
        · exact b2 ip' hip

theorem activate_ok : ∀ (ips : List ImPoint), (∀ ip ∈ ips, ∃ d, ip.state.depth = some d ∧ 0 < d) →
    ∃ ops, activateEach ips = .ok ops ∧ ops.map (fun op => (op.p, op.logInvDepth)) = ips.map (fun ip => (ip.p, ip.state.depth.map fun d => -Real.log d)) ∧
      ops.map (·.stddev) = ips.map (·.state.stddev)
  | [], _ => ⟨[], rfl, rfl, rfl⟩
  | ip :: ips, h => by
    obtain ⟨d, hd, hpos⟩ := h ip (List.mem_cons_self ..)
    obtain ⟨ops, h1, h2, h3⟩ := activate_ok ips fun ip hip => h ip (List.mem_cons_of_mem _ hip)
    refine ⟨⟨ip.p, some (-Real.log d), ip.state.stddev⟩ :: ops, ?_, by simp [hd, h2], by simp [h3]⟩
    rw [activateEach, h1]
    simp only [activate, hd, if_pos hpos, bind, Except.bind]

/-- **C145, activation.** If every candidate of a keyframe has a positive depth, all of them can be activated: the optimized points the keyframe had stay as they
are and are followed by one for each candidate, at its position, with its deviation, and with the logarithm of its inverse depth. -/
theorem C145_activate_partial {kf : KeyFrame} (hd : ∀ ip ∈ kf.immature, ∃ d, ip.state.depth = some d ∧ 0 < d) :
    ∃ ops, activateAllImmature kf = .ok ⟨kf.pre, [], kf.optimized ++ ops⟩ ∧ ops.length = kf.immature.length ∧
      ∀ (i : Nat) op ip, ops[i]? = some op → kf.immature[i]? = some ip →
        op.p = ip.p ∧ op.stddev = ip.state.stddev ∧ ∃ d, ip.state.depth = some d ∧ op.logInvDepth = some (Real.log (1 / d)) := by
  obtain ⟨ops, o1, o2, o3⟩ := activate_ok kf.immature hd
  refine ⟨ops, ?_, by simpa using congrArg List.length o2, ?_⟩
  · unfold activateAllImmature
    rw [o1]
    rfl
  · intro i op ip hop hip
    have e2 := congrArg (·[i]?) o2
    have e3 := congrArg (·[i]?) o3
    simp only [List.getElem?_map, hop, hip, Option.map_some, Option.some.injEq] at e2 e3
    obtain ⟨d, hd, -⟩ := hd ip (List.mem_of_getElem? hip)
    refine ⟨(Prod.mk.inj e2).1, e3, d, hd, ?_⟩
    rw [(Prod.mk.inj e2).2, hd]
    simp

/-- **C145, what holds.** If all optimized points of a keyframe are turned into candidates, these follow the candidates it had, with the positions and depths of
the points. If it had none and the candidates are turned back into optimized points, the points have the positions and depths they had. (Missing: the deviation,
which is infinite afterwards, see `C145_deviation_violated`, and that the patches can be copied, see C143.) -/
theorem C145_roundtrip_partial {c : Cam.Cam} {pattern : List V2} {height : Int} {kf kf1 : KeyFrame}
    (hfin : ∀ op ∈ kf.optimized, op.logInvDepth ≠ none) (h : deactivateAllOptimized c pattern height kf = .ok kf1) :
    kf1.optimized = [] ∧ kf1.pre = kf.pre ∧ (∃ ips, kf1.immature = kf.immature ++ ips ∧
      ips.map (fun ip => (ip.p, ip.state.depth)) = kf.optimized.map (fun op => (op.p, op.logInvDepth.map fun l => Real.exp (-l)))) ∧
    (kf.immature = [] → ∃ kf2, activateAllImmature kf1 = .ok kf2 ∧ kf2.pre = kf.pre ∧ kf2.immature = [] ∧
      kf2.optimized.map (fun op => (op.p, op.logInvDepth)) = kf.optimized.map (fun op => (op.p, op.logInvDepth))) := by
  unfold deactivateAllOptimized at h
  cases h1 : deactivateEach c pattern height kf.pre kf.optimized with
  | error e => rw [h1] at h; cases h
  | ok ips =>
    simp only [h1, bind, Except.bind] at h
    injection h with h
    subst h
    obtain ⟨a, b⟩ := deactivate_ok _ _ h1
    refine ⟨rfl, rfl, ⟨ips, rfl, a⟩, ?_⟩
    intro h0
    rw [h0, List.nil_append]
    have hd : ∀ ip ∈ ips, ∃ d, ip.state.depth = some d ∧ 0 < d := by
      intro ip hip
      have : (ip.p, ip.state.depth) ∈ ips.map (fun ip => (ip.p, ip.state.depth)) := List.mem_map_of_mem (f := fun ip : ImPoint => (ip.p, ip.state.depth)) hip
      rw [a] at this
      obtain ⟨op, hop, he⟩ := List.mem_map.1 this
      obtain ⟨l, hl⟩ := Option.ne_none_iff_exists'.1 (hfin op hop)
      rw [hl] at he
      exact ⟨Real.exp (-l), (Prod.mk.inj he).2.symm, Real.exp_pos _⟩
    obtain ⟨ops, o1, o2, -⟩ := activate_ok ips hd
    refine ⟨⟨kf.pre, [], ops⟩, ?_, rfl, rfl, ?_⟩
    · unfold activateAllImmature
      dsimp only
      rw [o1]
      rfl
    · show ops.map _ = _
      rw [o2]
      have e : ips.map (fun ip => (ip.p, ip.state.depth.map fun d => -Real.log d)) =
          (ips.map (fun ip => (ip.p, ip.state.depth))).map fun q => (q.1, q.2.map fun d => -Real.log d) := by simp
      rw [e, a, List.map_map]
      apply List.map_congr_left
      intro op _
      simp only [Function.comp, Option.map_map]
      congr 1
      cases op.logInvDepth <;> simp

/-- **C145, violated.** The deviation of every point is lost on the way: afterwards it is infinite. -/
theorem C145_deviation_violated {c : Cam.Cam} {pattern : List V2} {height : Int} {kf kf1 kf2 : KeyFrame} (h0 : kf.immature = [])
    (hfin : ∀ op ∈ kf.optimized, op.logInvDepth ≠ none) (h : deactivateAllOptimized c pattern height kf = .ok kf1) (h' : activateAllImmature kf1 = .ok kf2) :
    ∀ op ∈ kf2.optimized, op.stddev = ⊤ := by
  unfold deactivateAllOptimized at h
  cases h1 : deactivateEach c pattern height kf.pre kf.optimized with
  | error e => rw [h1] at h; cases h
  | ok ips =>
    simp only [h1, bind, Except.bind] at h
    injection h with h
    subst h
    rw [h0, List.nil_append] at h'
    obtain ⟨a, b⟩ := deactivate_ok _ _ h1
    have hd : ∀ ip ∈ ips, ∃ d, ip.state.depth = some d ∧ 0 < d := by
      intro ip hip
      have : (ip.p, ip.state.depth) ∈ ips.map (fun ip => (ip.p, ip.state.depth)) := List.mem_map_of_mem (f := fun ip : ImPoint => (ip.p, ip.state.depth)) hip
      rw [a] at this
      obtain ⟨op, hop, he⟩ := List.mem_map.1 this
      obtain ⟨l, hl⟩ := Option.ne_none_iff_exists'.1 (hfin op hop)
      rw [hl] at he
      exact ⟨Real.exp (-l), (Prod.mk.inj he).2.symm, Real.exp_pos _⟩
    obtain ⟨ops, o1, -, o3⟩ := activate_ok ips hd
    unfold activateAllImmature at h'
    dsimp only at h'
    rw [o1] at h'
    simp only [bind, Except.bind, List.nil_append] at h'
    injection h' with h'
    subst h'
    intro op hop
    have : op.stddev ∈ ops.map (·.stddev) := List.mem_map_of_mem (f := fun op : OptPoint => op.stddev) hop
    rw [o3] at this
    obtain ⟨ip, hip, he⟩ := List.mem_map.1 this
    rw [← he]
    exact (b ip hip).1

/-- **C145, violated.** Activating all points of a new keyframe that has any reads a depth that was never set. -/
theorem C145_untraced_violated {c : Cam.Cam} {pattern : List V2} {height : Int} {f : PreFrame} {q : PixSel.Pt} {qs : List PixSel.Pt} {ips : List ImPoint}
    (h : addImmatures c pattern height f (q :: qs) = .ok ips) : activateAllImmature ⟨f, ips, []⟩ = .error .ub := by
  obtain ⟨a, b⟩ := add_ok _ _ h
  cases ips with
  | nil => simp at a
  | cons ip ips =>
    have hd : ip.state.depth = none := by
      obtain ⟨b1, b2⟩ := b ip (List.mem_cons_self ..)
      by_cases hon : Cam.isOnImage c ip.p height
      · rw [b1 hon]; rfl
      · rw [b2 hon]; rfl
    unfold activateAllImmature
    rw [activateEach]
    simp only [activate, hd, bind, Except.bind]

/-- A keyframe with a point of depth `e` meets the hypotheses. -/
example (c : Cam.Cam) (hw : c.width = 5) (hh : c.height = 5) : ∃ kf kf1 : KeyFrame, kf.optimized.length = 1 ∧ kf.immature = [] ∧
    (∀ op ∈ kf.optimized, op.logInvDepth ≠ none ∧ op.stddev = 1) ∧ deactivateAllOptimized c [⟨0, 0⟩] 0 kf = .ok kf1 := by
  obtain ⟨f, hf⟩ : ∃ f, newPreFrame spotPicture 1 = .ok f := ⟨_, rfl⟩
  have hfo : FrameOf c spotPicture f := ⟨hh.symm, hw.symm, 1, hf⟩
  have hp : BA.patternHeight [⟨0, 0⟩] = .ok 0 := by
    simp [BA.patternHeight, BA.infNorm]
  obtain ⟨patch, hpt, -⟩ := (C143_patch_partial hp hfo ⟨2, 2⟩).2 (by unfold Cam.isOnImage; rw [hw, hh]; norm_num) (by unfold InsideBorder; rw [hw, hh]; norm_num)
  refine ⟨⟨f, [], [⟨⟨2, 2⟩, some (-1), 1⟩]⟩, ⟨f, [⟨⟨2, 2⟩, { Trace.new true with depth := some (Real.exp (- -1)) }, patch⟩], []⟩, rfl, rfl, ?_, ?_⟩
  · intro op hop
    simp only [List.mem_singleton] at hop
    subst hop
    exact ⟨by simp, rfl⟩
  · unfold deactivateAllOptimized
    simp only [deactivateEach, hpt, bind, Except.bind, List.nil_append, Option.map_some]

/-! ## C146: the number of pyramid levels of a frame -/

theorem internals_ok (pyr : List (Pyr.Img Nat)) : ∀ ls : List Nat,
    (∀ l ∈ ls, l < 8 ∧ ∃ im, pyr[l]? = some im ∧ 0 < im.rows ∧ 0 < im.cols) →
    ∃ gs, internals pyr ls = .ok gs ∧ gs.length = ls.length ∧ ∀ (i l : Nat), ls[i]? = some l → gs[i]? = pyr[l]?
  | [], _ => ⟨[], rfl, rfl, by simp⟩
  | l :: ls, h => by
    obtain ⟨h8, im, him, hr, hc⟩ := h l (List.mem_cons_self ..)
    obtain ⟨gs, h1, h2, h3⟩ := internals_ok pyr ls fun l hl => h l (List.mem_cons_of_mem _ hl)
    refine ⟨im :: gs, ?_, by simp [h2], ?_⟩
    · have e : at' pyr l = .ok im := by
        unfold at'
        rw [him]
      have e2 : gridOf im = .ok im := by
        unfold gridOf
        rw [if_pos ⟨hr, hc⟩]
      rw [internals, e]
      simp only [bind, Except.bind, if_pos (show l < maxLevelNum from h8), e2, h1]
    · intro i m hm
      cases i with
      | zero =>
        simp only [List.getElem?_cons_zero, Option.some.injEq] at hm
        subst hm
        rw [him]
        rfl
      | succ i => exact h3 i m hm

theorem internals_abort (pyr : List (Pyr.Img Nat)) : ∀ ls : List Nat, (∀ l ∈ ls, l < 8 ∧ l < pyr.length) →
    (∃ l ∈ ls, ∃ im, pyr[l]? = some im ∧ (im.rows = 0 ∨ im.cols = 0)) → internals pyr ls = .error .abort
  | [], _, h => by simp at h
  | l :: ls, h, hex => by
    obtain ⟨h8, hlt⟩ := h l (List.mem_cons_self ..)
    rw [internals, at'_lt hlt]
    simp only [bind, Except.bind, if_pos (show l < maxLevelNum from h8)]
    unfold gridOf
    by_cases h0 : 0 < (pyr[l]).rows ∧ 0 < (pyr[l]).cols
    · rw [if_pos h0]
      dsimp only
      obtain ⟨m, hm, im, him, he⟩ := hex
      rcases List.mem_cons.1 hm with rfl | hm
      · rw [List.getElem?_eq_getElem hlt] at him
        cases him
        omega
      · rw [internals_abort pyr ls (fun l hl => h l (List.mem_cons_of_mem _ hl)) ⟨m, hm, im, him, he⟩]
    · rw [if_neg h0]

theorem internals_append (pyr : List (Pyr.Img Nat)) : ∀ (a b : List Nat) (gs : List (Pyr.Img Nat)), internals pyr a = .ok gs → internals pyr b = .error .ub →
    internals pyr (a ++ b) = .error .ub
  | [], b, gs, _, h => h
  | l :: a, b, gs, h, hb => by
    rw [internals] at h
    rw [List.cons_append, internals]
    cases h1 : at' pyr l with
    | error e => rw [h1] at h; cases h
    | ok im =>
      rw [h1] at h
      simp only [bind, Except.bind] at h ⊢
      by_cases h8 : l < maxLevelNum
      · rw [if_pos h8] at h ⊢
        cases h2 : gridOf im with
        | error e => rw [h2] at h; cases h
        | ok g =>
          rw [h2] at h
          dsimp only at h ⊢
          cases h3 : internals pyr a with
          | error e => rw [h3] at h; cases h
          | ok gs' => rw [internals_append pyr a b gs' h3 hb]
      · rw [if_neg h8]

/-- **C146, what holds.** With one to eight levels and a picture that is large enough for them, a frame can be made; each of its levels can be interpolated, and
asking for any other level is reported as an error. (Missing: more levels and smaller pictures, see the violations.) -/
theorem C146_levels_partial (img : Pyr.Img Nat) (n : Nat) (h1 : 1 ≤ n) (h8 : n ≤ 8) (hr : 2 ^ (n - 1) ≤ img.rows) (hc : 2 ^ (n - 1) ≤ img.cols) :
    ∃ f, newPreFrame img n = .ok f ∧
      (∀ l : Nat, l < n → ∃ im, interpolator f l = .ok im ∧ Pyr.IsLevel img im l) ∧
      (∀ l : Int, l < 0 ∨ n ≤ l → interpolator f l = .error .abort) := by
  obtain ⟨m, rfl⟩ : ∃ m, n = m + 1 := ⟨n - 1, by omega⟩
  obtain ⟨pyr, hp, hlen, hlev⟩ := Pyr.C42_pyramid img m
  obtain ⟨gs, g1, g2, g3⟩ := internals_ok pyr (List.range (m + 1)) (by
    intro l hl
    have hl := List.mem_range.1 hl
    have hl' : l < pyr.length := by omega
    refine ⟨by omega, pyr[l], List.getElem?_eq_getElem hl', ?_⟩
    obtain ⟨e1, e2, -⟩ := hlev l _ (List.getElem?_eq_getElem hl')
    have hpow : 2 ^ l ≤ 2 ^ m := Nat.pow_le_pow_right (by norm_num) (by omega)
    simp only [Nat.add_sub_cancel] at hr hc
    rw [e1, e2]
    exact ⟨Nat.div_pos (le_trans hpow hr) (by positivity), Nat.div_pos (le_trans hpow hc) (by positivity)⟩)
  rw [List.length_range] at g2
  refine ⟨⟨pyr, grad img, gs⟩, ?_, ?_, ?_⟩
  · unfold newPreFrame
    rw [hp]
    simp only [bind, Except.bind, g1]
  · intro l hl
    have hl' : l < pyr.length := by omega
    have := g3 l l (by simp [hl])
    rw [List.getElem?_eq_getElem hl'] at this
    refine ⟨pyr[l], ?_, hlev l _ (List.getElem?_eq_getElem hl')⟩
    unfold interpolator at'
    rw [if_pos (by dsimp only; rw [g2]; omega)]
    simp only [Int.toNat_natCast, this]
  · intro l hl
    unfold interpolator
    rw [if_neg (by dsimp only; rw [g2]; push_cast; push_cast at hl; omega)]

/-- **C146, violated.** With more than eight levels, which nothing forbids, making a frame of a picture of 128 pixels or more writes behind an array. -/
theorem C146_many_levels_violated (img : Pyr.Img Nat) (n : Nat) (h8 : 8 < n) (hr : 128 ≤ img.rows) (hc : 128 ≤ img.cols) : newPreFrame img n = .error .ub := by
  obtain ⟨m, rfl⟩ : ∃ m, n = m + 1 := ⟨n - 1, by omega⟩
  obtain ⟨pyr, hp, hlen, hlev⟩ := Pyr.C42_pyramid img m
  obtain ⟨gs, g1, -, -⟩ := internals_ok pyr (List.range 8) (by
    intro l hl
    have hl := List.mem_range.1 hl
    have hl' : l < pyr.length := by omega
    refine ⟨by omega, pyr[l], List.getElem?_eq_getElem hl', ?_⟩
    obtain ⟨e1, e2, -⟩ := hlev l _ (List.getElem?_eq_getElem hl')
    have hpow : 2 ^ l ≤ 2 ^ 7 := Nat.pow_le_pow_right (by norm_num) (by omega)
    rw [e1, e2]
    exact ⟨Nat.div_pos (le_trans hpow hr) (by positivity), Nat.div_pos (le_trans hpow hc) (by positivity)⟩)
  obtain ⟨k, hk⟩ : ∃ k, m + 1 = 8 + (k + 1) := ⟨m - 8, by omega⟩
  have hb : internals pyr ((List.range (k + 1)).map (8 + ·)) = .error .ub := by
    rw [List.range_succ_eq_map, List.map_cons, internals, at'_lt (by omega)]
    rfl
  unfold newPreFrame
  rw [hp]
  simp only [bind, Except.bind]
  rw [hk, List.range_add, internals_append pyr _ _ gs g1 hb]

/-- **C146, violated.** For a picture too small for the configured number of levels the program ends with an error. -/
theorem C146_small_picture_violated (img : Pyr.Img Nat) (n : Nat) (h1 : 1 ≤ n) (h8 : n ≤ 8) (hs : img.rows < 2 ^ (n - 1) ∨ img.cols < 2 ^ (n - 1)) :
    newPreFrame img n = .error .abort := by
  obtain ⟨m, rfl⟩ : ∃ m, n = m + 1 := ⟨n - 1, by omega⟩
  obtain ⟨pyr, hp, hlen, hlev⟩ := Pyr.C42_pyramid img m
  have hm : m < pyr.length := by omega
  obtain ⟨e1, e2, -⟩ := hlev m _ (List.getElem?_eq_getElem hm)
  unfold newPreFrame
  rw [hp]
  simp only [bind, Except.bind]
  rw [internals_abort pyr (List.range (m + 1)) (fun l hl => by have := List.mem_range.1 hl; omega)
    ⟨m, List.mem_range.2 (by omega), pyr[m], List.getElem?_eq_getElem hm, by
      simp only [Nat.add_sub_cancel] at hs
      rw [e1, e2]
      rcases hs with hs | hs
      · exact Or.inl (Nat.div_eq_of_lt hs)
      · exact Or.inr (Nat.div_eq_of_lt hs)⟩]

/-- A point can be traced on the level asked for in every frame the system makes, if at most six levels are configured. -/
theorem C146_tracing_partial {e : Trace.Env} (h1 : 1 ≤ e.s.levelNum) (h6 : e.s.levelNum ≤ 6) {img : Pyr.Img Nat} {f : PreFrame} (hf : systemFrame img = .ok f)
    {dist : ℝ} {l : Int} (hl : Trace.pyrLevelOf e dist = .ok l) : ∃ im, interpolator f l = .ok im := by
  have hrange : 0 ≤ l ∧ l < 6 := by
    unfold Trace.pyrLevelOf at hl
    split at hl
    · injection hl with hl
      subst hl
      split <;> split <;> omega
    · cases hl
  obtain ⟨-, -, hp, hi⟩ := frame_parts hf
  have hlen : ∀ (ls : List Nat) (gs : List (Pyr.Img Nat)), internals f.pyramid ls = .ok gs → gs.length = ls.length := by
    intro ls
    induction ls with
    | nil =>
      intro gs h
      simp only [internals, Except.ok.injEq] at h
      subst h
      rfl
    | cons a ls ih =>
      intro gs h
      rw [internals] at h
      cases h1 : at' f.pyramid a with
      | error e => rw [h1] at h; cases h
      | ok im =>
        rw [h1] at h
        simp only [bind, Except.bind] at h
        by_cases h8 : a < maxLevelNum
        · rw [if_pos h8] at h
          cases h2 : gridOf im with
          | error e => rw [h2] at h; cases h
          | ok g =>
            rw [h2] at h
            dsimp only at h
            cases h3 : internals f.pyramid ls with
            | error e => rw [h3] at h; cases h
            | ok gs' =>
              rw [h3] at h
              injection h with h
              subst h
              simp [ih gs' h3]
        · rw [if_neg h8] at h
          cases h
  have h6 := hlen _ _ hi
  rw [List.length_range] at h6
  unfold interpolator
  rw [h6, if_pos ⟨hrange.1, by exact_mod_cast hrange.2⟩]
  exact ⟨_, at'_lt (by omega)⟩

/-- **C146, violated.** With seven levels or more configured, tracing asks for a level that no frame made by the system has, as soon as reprojections are 64 times
the height of the pattern apart. -/
theorem C146_tracing_violated {e : Trace.Env} (h7 : 7 ≤ e.s.levelNum) (hh : 0 < e.s.height) :
    Trace.pyrLevelOf e (64 * e.s.height) = .ok 6 ∧ ∀ img f, systemFrame img = .ok f → interpolator f 6 = .error .abort := by
  constructor
  · have hh' : (0 : ℝ) < e.s.height := by exact_mod_cast hh
    unfold Trace.pyrLevelOf
    have e1 : 64 * (e.s.height : ℝ) / e.s.height = 2 ^ (6 : ℕ) := by
      field_simp
      norm_num
    rw [e1, if_pos (by norm_num)]
    have e2 : Real.logb 2 ((2 : ℝ) ^ (6 : ℕ)) = ((6 : Int) : ℝ) := by
      rw [Real.logb_pow, Real.logb_self_eq_one (by norm_num)]
      norm_num
    rw [e2, round_intCast]
    simp only [Except.ok.injEq]
    rw [if_neg (by norm_num : ¬ (6 : Int) < 0), if_neg (by omega)]
  · intro img f hf
    obtain ⟨-, -, hp, hi⟩ := frame_parts hf
    have hlen : f.grids.length ≤ 6 := by
      by_cases hs : img.rows < 2 ^ 5 ∨ img.cols < 2 ^ 5
      · have := C146_small_picture_violated img 6 (by norm_num) (by norm_num) hs
        unfold systemFrame at hf
        rw [this] at hf
        cases hf
      · obtain ⟨f', hf', -, hab⟩ := C146_levels_partial img 6 (by norm_num) (by norm_num) (by omega) (by omega)
        unfold systemFrame at hf
        rw [hf'] at hf
        cases hf
        by_contra hc
        have := hab 6 (Or.inr (by norm_num))
        unfold interpolator at this
        rw [if_pos ⟨by norm_num, by omega⟩, at'_lt (by show 6 < _; omega)] at this
        cases this
    unfold interpolator
    rw [if_neg (by omega)]

/-- A picture of 32 by 40 pixels has six levels. -/
example : ∃ f, systemFrame ⟨32, 40, fun y x => y + x⟩ = .ok f ∧ ∃ im, interpolator f 5 = .ok im ∧ im.rows = 1 ∧ im.cols = 1 := by
  obtain ⟨f, hf, h, -⟩ := C146_levels_partial ⟨32, 40, fun y x => y + x⟩ 6 (by norm_num) (by norm_num) (by norm_num) (by norm_num)
  obtain ⟨im, h1, h2, h3, -⟩ := h 5 (by norm_num)
  exact ⟨f, hf, im, h1, by rw [h2]; rfl, by rw [h3]; rfl⟩

end Mdso.Frame
