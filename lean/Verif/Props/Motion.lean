import Verif.Lemmas.Motion
import Verif.Props.DsoSystem
import Mathlib.Tactic.FieldSimp
import Mathlib.Tactic.Ring
import Mathlib.Tactic.NormNum
import Mathlib.Tactic.Module
import Mathlib.Tactic.Push
import Mathlib.Tactic.Linarith
import Mathlib.Analysis.SpecialFunctions.Complex.Circle

/-!
# C18: motion prediction
-/

set_option autoImplicit false

namespace Mdso.Motion
open Mdso.Dso

/-- The step ratio used for scaling: frames from last to current over frames from last but one to last. -/
theorem C18_ratio {lbo last cur : Int} (h1 : lbo < last) (_h2 : last < cur) :
    timeLastByLbo lbo last cur = ((cur - last : ℝ)) / (last - lbo) := by
  unfold timeLastByLbo
  push_cast
  have h : (lbo : ℝ) < last := by exact_mod_cast h1
  have a : (lbo - last : ℝ) ≠ 0 := by linarith
  have b : (last - lbo : ℝ) ≠ 0 := by linarith
  rw [div_eq_div_iff a b]
  ring

section screw
variable {G T : Type} [Group G] [AddCommGroup T] [Module ℝ T]

/-- C18, screw prediction: for equal steps the last relative motion is applied once more. -/
theorem C18_screw_repeats (L : LogExp G T) (hL : ∀ g, L.exp (L.log g) = g) {lbo last cur : Int}
    (h1 : lbo < last) (hs : cur - last = last - lbo) (baseToLbo baseToLast : G) :
    predictScrew L (timeLastByLbo lbo last cur) baseToLbo baseToLast * baseToLast⁻¹
      = baseToLast * baseToLbo⁻¹ := by
  have hr : timeLastByLbo lbo last cur = 1 := by
    rw [C18_ratio h1 (by omega)]
    have h : (lbo : ℝ) < last := by exact_mod_cast h1
    have hs' : (cur - last : ℝ) = last - lbo := by exact_mod_cast hs
    rw [hs', div_self (by linarith)]
  unfold predictScrew
  simp [hr, hL]

/-- C18, screw prediction: for motion with a constant twist `ξ` (the pose of frame `n` is
`exp(n ξ) w`) it is exact for every base and all frame numbers, as long as the logarithm inverts the
exponential on the last step. -/
theorem C18_screw_exact (L : LogExp G T) (ξ : T)
    (hadd : ∀ a b : ℝ, L.exp ((a + b) • ξ) = L.exp (a • ξ) * L.exp (b • ξ))
    {lbo last cur : Int} (h1 : lbo < last) (h2 : last < cur)
    (hlog : L.log (L.exp (((last : ℝ) - lbo) • ξ)) = ((last : ℝ) - lbo) • ξ) (w base : G) :
    predictScrew L (timeLastByLbo lbo last cur) (L.exp ((lbo : ℝ) • ξ) * w * base)
      (L.exp ((last : ℝ) • ξ) * w * base) = L.exp ((cur : ℝ) • ξ) * w * base := by
  unfold predictScrew
  have e0 : L.exp (((last : ℝ) - lbo) • ξ) * L.exp ((lbo : ℝ) • ξ) = L.exp ((last : ℝ) • ξ) := by
    rw [← hadd]; congr 2; ring
  have e1 : L.exp ((last : ℝ) • ξ) * w * base * (L.exp ((lbo : ℝ) • ξ) * w * base)⁻¹
      = L.exp (((last : ℝ) - lbo) • ξ) := by
    rw [← e0]; group
  simp only
  rw [e1, hlog, smul_smul, C18_ratio h1 h2]
  have h : (lbo : ℝ) < last := by exact_mod_cast h1
  rw [div_mul_cancel₀ _ (by linarith), ← mul_assoc, ← mul_assoc, ← hadd]
  congr 4; ring

end screw

section simple
variable {R V T : Type} [Group R] [AddCommGroup V] [Module ℝ V] [DistribMulAction R V]
  [AddCommGroup T] [Module ℝ T]

/-- C18, simple prediction: for equal steps the last relative motion is applied once more. -/
theorem C18_simple_repeats (L : LogExp R T) (hL : ∀ g, L.exp (L.log g) = g) {lbo last cur : Int}
    (h1 : lbo < last) (hs : cur - last = last - lbo) (baseToLbo baseToLast : Rigid R V) :
    predictSimple L (timeLastByLbo lbo last cur) baseToLbo baseToLast * baseToLast⁻¹
      = baseToLast * baseToLbo⁻¹ := by
  have hr : timeLastByLbo lbo last cur = 1 := by
    rw [C18_ratio h1 (by omega)]
    have h : (lbo : ℝ) < last := by exact_mod_cast h1
    have hs' : (cur - last : ℝ) = last - lbo := by exact_mod_cast hs
    rw [hs', div_self (by linarith)]
  unfold predictSimple
  simp only [hr, one_smul, hL, mul_inv_cancel, mul_inv_cancel_right]

/-- Position of the camera centre of the second frame in coordinates of the first, for the motion `g` from
the first to the second. -/
def centre (g : Rigid R V) : V := (g⁻¹).act 0

/-- C18, simple prediction: if over the last step the camera rotated by `exp(d ω)` and moved by `d v` in
its own coordinates (`d` the number of frames), then the predicted next step of `d'` frames rotates by
`exp(d' ω)` and moves by `d' v` in the camera's own coordinates. -/
theorem C18_simple_exact [SMulCommClass R ℝ V] (L : LogExp R T) (ω : T) (v : V)
    {lbo last cur : Int} (h1 : lbo < last)
    (h2 : last < cur) (hlog : L.log (L.exp (((last : ℝ) - lbo) • ω)) = ((last : ℝ) - lbo) • ω)
    (baseToLbo baseToLast : Rigid R V)
    (hrot : (baseToLast * baseToLbo⁻¹).rot = L.exp (((last : ℝ) - lbo) • ω))
    (hmove : centre (baseToLast * baseToLbo⁻¹) = ((last : ℝ) - lbo) • v) :
    let step := predictSimple L (timeLastByLbo lbo last cur) baseToLbo baseToLast * baseToLast⁻¹
    step.rot = L.exp (((cur : ℝ) - last) • ω) ∧ centre step = ((cur : ℝ) - last) • v := by
  intro step
  have h : (lbo : ℝ) < last := by exact_mod_cast h1
  have hne : (last : ℝ) - lbo ≠ 0 := by linarith
  have hr : timeLastByLbo lbo last cur • (((last : ℝ) - lbo) • ω) = ((cur : ℝ) - last) • ω := by
    rw [smul_smul, C18_ratio h1 h2, div_mul_cancel₀ _ hne]
  have hr' : timeLastByLbo lbo last cur • (((last : ℝ) - lbo) • v) = ((cur : ℝ) - last) • v := by
    rw [smul_smul, C18_ratio h1 h2, div_mul_cancel₀ _ hne]
  have hstep : step = ⟨L.exp (((cur : ℝ) - last) • ω), timeLastByLbo lbo last cur •
      ((L.exp (((cur : ℝ) - last) • ω) * (baseToLast * baseToLbo⁻¹).rot⁻¹) •
        (baseToLast * baseToLbo⁻¹).trans)⟩ := by
    show predictSimple L _ _ _ * _ = _
    unfold predictSimple
    simp only [mul_inv_cancel_right]
    rw [hrot, hlog, hr]
  refine ⟨by rw [hstep], ?_⟩
  have hm : - ((baseToLast * baseToLbo⁻¹).rot⁻¹ • (baseToLast * baseToLbo⁻¹).trans)
      = ((last : ℝ) - lbo) • v := by
    rw [← hmove]; simp only [centre, Rigid.act, smul_zero, zero_add, Rigid.inv_trans]
  rw [← hr', ← hm, hstep]
  simp only [centre, Rigid.act, smul_zero, zero_add, Rigid.inv_trans]
  rw [smul_comm, ← mul_smul, inv_mul_cancel_left, smul_neg]

end simple

/-- The circle group with its angle: exponential and logarithm of rotations of the plane. -/
noncomputable def circleLog : LogExp Circle ℝ := ⟨Circle.exp, fun z => Complex.arg z⟩

-- Rotation by 0.5 per frame, frames 3, 5, 6: the logarithm inverts the exponential on the step 3 → 5.
example : (∀ g, circleLog.exp (circleLog.log g) = g) ∧
    (∀ a b : ℝ, circleLog.exp ((a + b) • (0.5 : ℝ))
      = circleLog.exp (a • (0.5 : ℝ)) * circleLog.exp (b • (0.5 : ℝ))) ∧
    circleLog.log (circleLog.exp ((((5 : Int) : ℝ) - (3 : Int)) • (0.5 : ℝ)))
      = (((5 : Int) : ℝ) - (3 : Int)) • (0.5 : ℝ) := by
  refine ⟨fun g => Circle.exp_arg g, fun a b => ?_, ?_⟩
  · simp [circleLog, add_mul, Circle.exp_add]
  · have : ((((5 : Int) : ℝ) - (3 : Int)) • (0.5 : ℝ)) = 1 := by norm_num
    rw [this]
    exact Circle.arg_exp (by linarith [Real.two_le_pi]) (by linarith [Real.two_le_pi])

/-! ## Which poses the prediction reads -/

variable {G : Type}

theorem mem_drop_iff {L : List Int} (hn : L.Nodup) {i m : Nat} (hi : i < L.length) :
    L[i] ∈ L.drop m ↔ m ≤ i := by
  constructor
  · intro h
    obtain ⟨j, hj, e⟩ := List.getElem_of_mem h
    rw [List.getElem_drop] at e
    have := (List.Nodup.getElem_inj_iff hn).1 e
    omega
  · intro h
    have : L[i] = (L.drop m)[i - m]'(by rw [List.length_drop]; omega) := by
      rw [List.getElem_drop]; congr 1; omega
    rw [this]; exact List.getElem_mem _

theorem mem_take_one_iff {L : List Int} (hn : L.Nodup) {i : Nat} (hi : i < L.length) :
    L[i] ∈ L.take 1 ↔ i = 0 := by
  cases L with
  | nil => simp at hi
  | cons a l =>
    simp only [List.take_succ_cons, List.take_zero, List.mem_singleton]
    constructor
    · intro h
      have h0 : (a :: l)[i] = (a :: l)[0] := h
      exact (List.Nodup.getElem_inj_iff hn).1 h0
    · intro h; subst h; rfl

/-- C18. When a frame is tracked, the prediction reads the poses of the two frames accepted before it; the
last one has always been estimated. The last but one has been estimated if and only if no frame was
skipped at initialization or this is not the first tracked frame. -/
theorem C18_estimated_partial [Group G] {set : Settings} (hv : Valid set) {s0 : State G}
    (hc : create set = .ok s0) {xs : List (FrameIn G)} {a b x : FrameIn G}
    (hl : Legal ((xs ++ [a, b]).map (·.num))) (_hx : b.num < x.num)
    (hk : set.firstFramesSkip.toNat + 2 ≤ (xs ++ [a, b]).length) :
    ∃ s rs, run set s0 (xs ++ [a, b]) = .ok (s, rs) ∧
      predictionFrames (s.frameNumbers ++ [x.num]) = .ok (a.num, b.num) ∧
      (s.worldToFrame b.num).isSome ∧
      ((s.worldToFrame a.num).isSome ↔
        set.firstFramesSkip.toNat = 0 ∨ set.firstFramesSkip.toNat + 3 ≤ (xs ++ [a, b]).length) := by
  obtain ⟨s, rs, e, hi, hkn⟩ := run_create_known hv hc hl
  have hlen : ((xs ++ [a, b]).map (·.num)).length = xs.length + 2 := by simp
  let L : List Int := (xs ++ [a, b]).map (·.num)
  have hlen' : L.length = xs.length + 2 := hlen
  have hnd : L.Nodup := hl.1.imp (fun h => by omega)
  have hk' : (policyOf set).skip = set.firstFramesSkip.toNat := rfl
  refine ⟨s, rs, e, ?_, ?_, ?_⟩
  · rw [hi.frames]; simp [predictionFrames]
  · rw [hkn, hlen]
    simp only [List.length_append, List.length_cons, List.length_nil] at hk
    refine ⟨by omega, List.mem_append_right _ ?_⟩
    have hb : b.num = L[xs.length + 1]'(by omega) := by simp [L]
    rw [hb, mem_drop_iff hnd]; omega
  · rw [hkn, hlen]
    simp only [List.length_append, List.length_cons, List.length_nil] at hk ⊢
    have ha : a.num = L[xs.length]'(by omega) := by simp [L]
    rw [List.mem_append, ha, mem_drop_iff hnd, mem_take_one_iff hnd]
    omega

example := C18_estimated_partial (G := Multiplicative Int) exValid exState_created
  (xs := exCalls [1]) (a := ⟨2, 1, 1, fun _ => 1⟩) (b := ⟨3, 1, 1, fun _ => 1⟩)
  (x := ⟨4, 1, 1, fun _ => 1⟩) ⟨by decide, by decide⟩ (by decide) (by decide)

/-- C18. The pose handed to the tracker is the extrapolation, by the ratio of the frame-number steps, of the
poses recorded for the two previous frames, both taken relative to the keyframe tracked from. -/
theorem C18_prediction [Group G] {set : Settings} (hv : Valid set) {s0 : State G}
    (hc : create set = .ok s0) {xs : List (FrameIn G)} {a b x : FrameIn G}
    (hl : Legal ((xs ++ [a, b]).map (·.num))) (hx : b.num < x.num)
    (hk : set.firstFramesSkip.toNat + 2 ≤ (xs ++ [a, b]).length) (predict : ℝ → G → G → G) :
    ∃ s rs base, run set s0 (xs ++ [a, b]) = .ok (s, rs) ∧ base ∈ s.keyFrames ∧
      predictBaseKfToCur predict set { s with frameNumbers := s.frameNumbers ++ [x.num] }
        = .ok (predict ((x.num - b.num) / (b.num - a.num))
            (((s.worldToFrame a.num).getD 1) * base.thisToWorld)
            (((s.worldToFrame b.num).getD 1) * base.thisToWorld)) := by
  obtain ⟨s, rs, e, hi, _⟩ := run_create_known hv hc hl
  obtain ⟨hW, _⟩ := window_facts hv hi (by simpa [policyOf] using hk)
  obtain ⟨base, hb1, hb2⟩ := baseKeyFrame_ok set hW
  have hab : a.num < b.num := by
    have := hl.1
    simp only [List.map_append, List.map_cons, List.map_nil] at this
    have := (List.pairwise_append.1 this).2.1
    simpa using this
  refine ⟨s, rs, base, e, List.mem_of_getElem? hb2, ?_⟩
  unfold predictBaseKfToCur
  have h1 : predictionFrames (s.frameNumbers ++ [x.num]) = .ok (a.num, b.num) := by
    rw [hi.frames]; simp [predictionFrames]
  simp only [h1, hb1, List.getLast?_append, List.getLast?_singleton, Option.some_or]
  rw [C18_ratio hab hx]; rfl

/-- C18 is violated on the first tracked frame if frames were skipped at initialization: the pose read for
the last but one frame was never estimated, and the identity is used instead. -/
theorem C18_unestimated_violated [Group G] {set : Settings} (hv : Valid set)
    (hskip : 1 ≤ set.firstFramesSkip) {s0 : State G} (hc : create set = .ok s0)
    {xs : List (FrameIn G)} {a b x : FrameIn G} (hl : Legal ((xs ++ [a, b]).map (·.num)))
    (hx : b.num < x.num) (hk : set.firstFramesSkip.toNat + 2 = (xs ++ [a, b]).length) :
    ∃ s rs, run set s0 (xs ++ [a, b]) = .ok (s, rs) ∧
      predictionFrames (s.frameNumbers ++ [x.num]) = .ok (a.num, b.num) ∧
      s.worldToFrame a.num = none ∧ readPose s a.num = 1 := by
  obtain ⟨s, rs, e, h1, _, h3⟩ := C18_estimated_partial hv hc hl hx (Nat.le_of_eq hk)
  have : s.worldToFrame a.num = none := by
    rw [← Option.isNone_iff_eq_none, ← Option.not_isSome, Bool.not_eq_eq_eq_not, Bool.not_true,
      Bool.eq_false_iff, Ne, h3]
    omega
  exact ⟨s, rs, e, h1, this, by simp [readPose, this]⟩

example := C18_unestimated_violated (G := Multiplicative Int) exValid (by decide) exState_created
  (xs := exCalls [1]) (a := ⟨2, 1, 1, fun _ => 1⟩) (b := ⟨3, 1, 1, fun _ => 1⟩)
  (x := ⟨4, 1, 1, fun _ => 1⟩) ⟨by decide, by decide⟩ (by decide) (by decide)

end Mdso.Motion
