import Verif.Props.Sim3Aligner
import Verif.Props.TrajectoryGT

/-!
# C157: the aligned ground truth does not depend on the coordinates of the ground truth
-/

set_option autoImplicit false

namespace Mdso.Align
open Mdso.Motion Mdso.Traj Mdso.Dso

variable {R V : Type} [Group R] [NormedAddCommGroup V] [NormedSpace ℝ V] [DistribMulAction R V]

/-- The world-to-frame pose of the same frame after measuring lengths in another unit, in which they are `k` times
as large, and then describing points `x` of the world by `y` with `x = h y`. -/
def recoord (k : ℝ) (h g : Rigid R V) : Rigid R V := ⟨g.rot, k • g.trans⟩ * h

section
variable [SMulCommClass R ℝ V]

theorem scale_mul (a : ℝ) (g h : Rigid R V) : scaleTrans a (g * h) = scaleTrans a g * scaleTrans a h := by
  ext <;> simp [scaleTrans, smul_add, smul_comm]

theorem scale_inv (a : ℝ) (g : Rigid R V) : scaleTrans a g⁻¹ = (scaleTrans a g)⁻¹ := by
  ext <;> simp [scaleTrans, smul_comm]

theorem scale_scale (a b : ℝ) (g : Rigid R V) : scaleTrans a (scaleTrans b g) = scaleTrans (a * b) g := by
  ext <;> simp [scaleTrans, mul_smul]

theorem scale_one (g : Rigid R V) : scaleTrans 1 g = g := by ext <;> simp [scaleTrans]

theorem recoord_rel (k : ℝ) (h f l : Rigid R V) :
    recoord k h l * (recoord k h f)⁻¹ = scaleTrans k (l * f⁻¹) := by
  show scaleTrans k l * h * (scaleTrans k f * h)⁻¹ = _
  rw [scale_mul, scale_inv]; group

theorem create_moving {f l fGT lGT : Rigid R V} (h1 : 1e-3 ≤ ‖(l * f⁻¹).trans‖)
    (h2 : 1e-3 ≤ ‖(lGT * fGT⁻¹).trans‖) :
    create f l fGT lGT = ⟨some (‖(l * f⁻¹).trans‖ / ‖(lGT * fGT⁻¹).trans‖),
       (scaleTrans (‖(l * f⁻¹).trans‖ / ‖(lGT * fGT⁻¹).trans‖) fGT)⁻¹ * f⟩ := by
  unfold create
  simp only
  rw [if_neg (by push Not; exact ⟨h2, h1⟩)]

/-- C157, units. If the baseline of the ground truth has at least the length 0.001 in both units, poses and points are
aligned to the same results. -/
theorem C157_unit (k : ℝ) (hk : 0 < k) (h f l fGT lGT : Rigid R V)
    (h2 : 1e-3 ≤ ‖(lGT * fGT⁻¹).trans‖) (h3 : 1e-3 ≤ k * ‖(lGT * fGT⁻¹).trans‖) (g : Rigid R V) (p : V) :
    (create f l (recoord k h fGT) (recoord k h lGT)).alignWorldToFrameGT (recoord k h g) =
        (create f l fGT lGT).alignWorldToFrameGT g ∧
      (create f l (recoord k h fGT) (recoord k h lGT)).alignScale (k • p) =
        (create f l fGT lGT).alignScale p := by
  have hn : ‖(recoord k h lGT * (recoord k h fGT)⁻¹).trans‖ = k * ‖(lGT * fGT⁻¹).trans‖ := by
    rw [recoord_rel]
    show ‖k • (lGT * fGT⁻¹).trans‖ = _
    rw [norm_smul, Real.norm_of_nonneg hk.le]
  by_cases h1 : 1e-3 ≤ ‖(l * f⁻¹).trans‖
  · rw [create_moving h1 h2, create_moving h1 (by rw [hn]; exact h3), hn]
    have p2 : 0 < ‖(lGT * fGT⁻¹).trans‖ := by linarith [show (0 : ℝ) < 1e-3 by norm_num]
    have hs : ‖(l * f⁻¹).trans‖ / (k * ‖(lGT * fGT⁻¹).trans‖) * k = ‖(l * f⁻¹).trans‖ / ‖(lGT * fGT⁻¹).trans‖ := by
      field_simp
    have key : ∀ x : Rigid R V, scaleTrans (‖(l * f⁻¹).trans‖ / (k * ‖(lGT * fGT⁻¹).trans‖)) (recoord k h x) =
        scaleTrans (‖(l * f⁻¹).trans‖ / ‖(lGT * fGT⁻¹).trans‖) x *
          scaleTrans (‖(l * f⁻¹).trans‖ / (k * ‖(lGT * fGT⁻¹).trans‖)) h := by
      intro x
      show scaleTrans _ (scaleTrans k x * h) = _
      rw [scale_mul, scale_scale, hs]
    constructor
    · show Except.ok (scaleTrans _ (recoord k h g) * ((scaleTrans _ (recoord k h fGT))⁻¹ * f)) = Except.ok _
      rw [key, key]
      congr 1
      group
    · show Except.ok (_ • (k • p)) = Except.ok _
      rw [smul_smul, hs]
  · push Not at h1
    obtain ⟨a1, a2⟩ := C57_static_ub f l fGT lGT (.inl h1) g p
    obtain ⟨b1, b2⟩ := C57_static_ub f l (recoord k h fGT) (recoord k h lGT) (.inl h1) (recoord k h g) (k • p)
    rw [a1, a2, b1, b2]
    exact ⟨rfl, rfl⟩

/-- C157, coordinates. Describing the world of the ground truth by other coordinates of the same unit changes no
result, not even whether there is one. -/
theorem C157_coordinates (h f l fGT lGT g : Rigid R V) (p : V) :
    (create f l (fGT * h) (lGT * h)).alignWorldToFrameGT (g * h) = (create f l fGT lGT).alignWorldToFrameGT g ∧
      (create f l (fGT * h) (lGT * h)).alignScale p = (create f l fGT lGT).alignScale p := by
  have hr : ∀ x : Rigid R V, recoord 1 h x = x * h := by
    intro x
    show scaleTrans 1 x * h = _
    rw [scale_one]
  by_cases h2 : 1e-3 ≤ ‖(lGT * fGT⁻¹).trans‖
  · have := C157_unit 1 one_pos h f l fGT lGT h2 (by rw [one_mul]; exact h2) g p
    rwa [hr, hr, hr, one_smul] at this
  · push Not at h2
    obtain ⟨a1, a2⟩ := C57_static_ub f l fGT lGT (.inr h2) g p
    obtain ⟨b1, b2⟩ := C57_static_ub f l (fGT * h) (lGT * h)
      (.inr (by rw [show lGT * h * (fGT * h)⁻¹ = lGT * fGT⁻¹ by group]; exact h2)) (g * h) p
    rw [a1, a2, b1, b2]
    exact ⟨rfl, rfl⟩

/-- C157, estimate. In other coordinates of the estimated world the aligned poses are described by these
coordinates too, so that the errors relative to the estimate are the same. -/
theorem C157_estimate (h f l fGT lGT g : Rigid R V) :
    (create (f * h) (l * h) fGT lGT).alignWorldToFrameGT g =
      ((create f l fGT lGT).alignWorldToFrameGT g).map (· * h) := by
  have e : l * h * (f * h)⁻¹ = l * f⁻¹ := by group
  unfold create
  simp only [e]
  by_cases hc : ‖(lGT * fGT⁻¹).trans‖ < 1e-3 ∨ ‖(l * f⁻¹).trans‖ < 1e-3
  · rw [if_pos hc, if_pos hc]; rfl
  · rw [if_neg hc, if_neg hc]
    show Except.ok _ = Except.ok _
    congr 1
    group

theorem eq_of_keys {A B : Type} : ∀ {l m : List (A × B)}, l.map Prod.fst = m.map Prod.fst →
    (∀ a ∈ l, ∀ b ∈ m, a.1 = b.1 → a = b) → l = m
  | [], [], _, _ => rfl
  | [], _ :: _, h, _ => by simp at h
  | _ :: _, [], h, _ => by simp at h
  | a :: l, b :: m, h, hd => by
    rw [List.map_cons, List.map_cons, List.cons.injEq] at h
    rw [hd a (by simp) b (by simp) h.1,
      eq_of_keys h.2 fun x hx y hy => hd x (List.mem_cons_of_mem _ hx) y (List.mem_cons_of_mem _ hy)]

/-- C157, files. For a ground truth table that covers the history, and an alignment that is the one of `Sim3Aligner` where
that is defined: if estimate and ground truth move by at least 0.001 between the first two keyframes, the latter in both
units, the ground truth pose file is the same line by line after the change of coordinates and unit. -/
theorem C157_file {set : Settings} (hv : Valid set) {s0 : State (Rigid R V)} (hc : Dso.create set = .ok s0)
    {xs : List (FrameIn (Rigid R V))} (hl : Legal (xs.map (·.num)))
    (align : Rigid R V → Rigid R V → Rigid R V → Rigid R V → Rigid R V → Rigid R V)
    (hal : ∀ f l fGT lGT g a, (create f l fGT lGT).alignWorldToFrameGT g = .ok a → align f l fGT lGT g = a)
    {gt : List (Rigid R V)} (hg : ∀ x ∈ xs, x.num < gt.length) (k : ℝ) (hk : 0 < k) (h : Rigid R V) :
    ∃ s rs w w', run set s0 xs = .ok (s, rs) ∧ writerGTOf align gt (destroy s) = .ok w ∧
      writerGTOf align (gt.map (recoord k h)) (destroy s) = .ok w' ∧
      ((∀ first last rest gf gl, s.log = .initialized [first, last] :: rest → gt[first.num.toNat]? = some gf →
          gt[last.num.toNat]? = some gl → 1e-3 ≤ ‖(last.thisToWorld⁻¹ * first.thisToWorld).trans‖ ∧
            1e-3 ≤ ‖(gl * gf⁻¹).trans‖ ∧ 1e-3 ≤ k * ‖(gl * gf⁻¹).trans‖) →
        w'.lines = w.lines) := by
  have hg' : ∀ x ∈ xs, x.num < (gt.map (recoord k h)).length := by simpa using hg
  obtain ⟨s, rs, w, e, ew, hw⟩ := C62_gt_poses hv hc hl align hg
  obtain ⟨s', rs', w', e', ew', hw'⟩ := C62_gt_poses hv hc hl align hg'
  rw [e] at e'
  cases e'
  refine ⟨s, rs, w, w', e, ew, ew', fun hm => ?_⟩
  obtain ⟨s1, rs1, e1, hi, _, hd⟩ := Cloud.run_create_logHead hv hc hl
  rw [e] at e1
  cases e1
  have nums : ∀ (t : List (Rigid R V)) (u : WriterGT (Rigid R V)), (∀ x ∈ xs, x.num < t.length) →
      writerGTOf align t (destroy s) = .ok u → u.lines.map Prod.fst = (destroy s).flatMap writtenBy := by
    intro t u ht eu
    have hcov := covers_log hi (gt := t) (by simpa using ht) hd
    obtain ⟨u', eu', hu⟩ := gsteps_ok (align := align) (destroy s)
      (⟨rfl, rfl, rfl, rfl, by simp [WriterGT.init]⟩ : GInv t (WriterGT.init t) []) hcov
    unfold writerGTOf at eu
    rw [eu] at eu'
    cases eu'
    simpa using hu.lines
  have n1 := nums gt w hg ew
  have n2 := nums _ w' hg' ew'
  rcases hw with ⟨hlog, hn⟩ | ⟨first, last, rest, gf, gl, hlog, hgf, hgl, hlines⟩
  · rcases hw' with ⟨_, hn'⟩ | ⟨_, _, _, _, _, hlog', _⟩
    · rw [hn, hn']
    · rw [hlog] at hlog'; cases hlog'
  · rcases hw' with ⟨hlog', _⟩ | ⟨first', last', rest', gf', gl', hlog', hgf', hgl', hlines'⟩
    · rw [hlog] at hlog'; cases hlog'
    · rw [hlog] at hlog'
      cases hlog'
      obtain ⟨m1, m2, m3⟩ := hm _ _ _ gf gl hlog hgf hgl
      rw [List.getElem?_map, hgf] at hgf'
      rw [List.getElem?_map, hgl] at hgl'
      cases hgf'
      cases hgl'
      have same : ∀ g, align first.thisToWorld⁻¹ last.thisToWorld⁻¹ (recoord k h gf) (recoord k h gl) (recoord k h g) =
          align first.thisToWorld⁻¹ last.thisToWorld⁻¹ gf gl g := by
        intro g
        have h1 : 1e-3 ≤ ‖(last.thisToWorld⁻¹ * first.thisToWorld⁻¹⁻¹).trans‖ := by rw [inv_inv]; exact m1
        obtain ⟨_, al, _, hok, _⟩ := C57_alignment first.thisToWorld⁻¹ last.thisToWorld⁻¹ gf gl h1 m2
        rw [hal _ _ _ _ _ _ (hok g)]
        refine hal _ _ _ _ _ _ ?_
        rw [(C157_unit k hk h _ _ gf gl m2 m3 g 0).1]
        exact hok g
      have det : ∀ a ∈ w'.lines, ∀ b ∈ w.lines, a.1 = b.1 → a = b := by
        intro a ha b hb hab
        obtain ⟨g, hg1, hg2⟩ := hlines b hb
        obtain ⟨g', hg1', hg2'⟩ := hlines' a ha
        rw [List.getElem?_map, hab, hg1] at hg1'
        cases hg1'
        rw [same] at hg2'
        exact Prod.ext hab (hg2'.trans hg2.symm)
      rw [← n2] at n1
      exact eq_of_keys n1.symm det

end

/-! ## Demonstrations -/

-- Ground truth in other units, with another origin: the baseline of 5 becomes one of 500.
example (g : Rigid Circle ℂ) (p : ℂ) :
    (create ⟨1, 7⟩ ⟨1, 9⟩ (recoord 100 ⟨1, 4⟩ ⟨1, 3⟩) (recoord 100 ⟨1, 4⟩ ⟨1, 8⟩)).alignWorldToFrameGT
        (recoord 100 ⟨1, 4⟩ g) = (create ⟨1, 7⟩ ⟨1, 9⟩ ⟨1, 3⟩ ⟨1, 8⟩).alignWorldToFrameGT g := by
  have e2 : ((⟨1, 8⟩ : Rigid Circle ℂ) * (⟨1, 3⟩)⁻¹).trans = 5 := by simp; norm_num
  exact (C157_unit 100 (by norm_num) ⟨1, 4⟩ ⟨1, 7⟩ ⟨1, 9⟩ ⟨1, 3⟩ ⟨1, 8⟩ (by rw [e2]; norm_num)
    (by rw [e2]; norm_num) g p).1

/-- Three frames; the first and the third make the initial keyframes, one unit apart. -/
noncomputable def planeCalls : List (FrameIn (Rigid Circle ℂ)) :=
  [1, 2, 3].map fun n => ⟨n, ⟨1, 1⟩, 1, fun _ => 1⟩

theorem planeLog : ∃ s rs rest, run exSettings ⟨⟨false, 0, 0⟩, false, [], [], exSettings.initialMaxFrame, fun _ => none, []⟩ planeCalls =
    .ok (s, rs) ∧ s.log = .initialized [⟨1, 1, []⟩, ⟨3, (⟨1, 1⟩ : Rigid Circle ℂ)⁻¹, []⟩] :: rest :=
  ⟨_, _, _, rfl, rfl⟩

-- The ground truth moves by one unit from frame to frame, in metres and in centimetres.
example (align : Rigid Circle ℂ → Rigid Circle ℂ → Rigid Circle ℂ → Rigid Circle ℂ → Rigid Circle ℂ → Rigid Circle ℂ)
    (hal : ∀ f l fGT lGT g a, (create f l fGT lGT).alignWorldToFrameGT g = .ok a → align f l fGT lGT g = a)
    (h : Rigid Circle ℂ) : ∃ s rs w w', run exSettings ⟨⟨false, 0, 0⟩, false, [], [], exSettings.initialMaxFrame, fun _ => none, []⟩
      planeCalls = .ok (s, rs) ∧ writerGTOf align [⟨1, 0⟩, ⟨1, 1⟩, ⟨1, 2⟩, ⟨1, 3⟩] (destroy s) = .ok w ∧
      writerGTOf align (List.map (recoord 100 h) [⟨1, 0⟩, ⟨1, 1⟩, ⟨1, 2⟩, ⟨1, 3⟩]) (destroy s) = .ok w' ∧
      w'.lines = w.lines := by
  obtain ⟨s, rs, w, w', e, ew, ew', hw⟩ := C157_file (R := Circle) (V := ℂ) exValid rfl (xs := planeCalls)
    ⟨by decide, by decide⟩ align hal (gt := [⟨1, 0⟩, ⟨1, 1⟩, ⟨1, 2⟩, ⟨1, 3⟩]) (by simp [planeCalls]) 100 (by norm_num) h
  refine ⟨s, rs, w, w', e, ew, ew', hw ?_⟩
  intro first last rest gf gl hlog hgf hgl
  obtain ⟨s2, rs2, rest2, e2, hlog2⟩ := planeLog
  have := e.symm.trans e2
  cases this
  rw [hlog] at hlog2
  cases hlog2
  cases hgf
  cases hgl
  refine ⟨?_, ?_, ?_⟩ <;> simp <;> norm_num

/-- C157: the length 0.001 is compared with numbers in the unit of the ground truth. The same poses, in a unit in which
the baseline of 5 has the length 0.0005, leave the aligner without a scale. -/
theorem C157_small_unit_violated : ∃ (k : ℝ) (f l fGT lGT : Rigid Circle ℂ), 0 < k ∧
    (∀ g, ∃ a, (create f l fGT lGT).alignWorldToFrameGT g = .ok a) ∧
      ∀ g, (create f l (recoord k 1 fGT) (recoord k 1 lGT)).alignWorldToFrameGT g = .error .ub := by
  have e1 : ((⟨1, 9⟩ : Rigid Circle ℂ) * (⟨1, 7⟩)⁻¹).trans = 2 := by simp; norm_num
  have e2 : ((⟨1, 8⟩ : Rigid Circle ℂ) * (⟨1, 3⟩)⁻¹).trans = 5 := by simp; norm_num
  refine ⟨1 / 10000, ⟨1, 7⟩, ⟨1, 9⟩, ⟨1, 3⟩, ⟨1, 8⟩, by norm_num, fun g => ?_, fun g => ?_⟩
  · obtain ⟨_, al, _, hok, _⟩ := C57_alignment (⟨1, 7⟩ : Rigid Circle ℂ) ⟨1, 9⟩ ⟨1, 3⟩ ⟨1, 8⟩
      (by rw [e1]; norm_num) (by rw [e2]; norm_num)
    exact ⟨_, hok g⟩
  · refine (C57_static_ub _ _ _ _ (.inr ?_) g 0).1
    rw [recoord_rel]
    show ‖(1 / 10000 : ℝ) • ((⟨1, 8⟩ : Rigid Circle ℂ) * (⟨1, 3⟩)⁻¹).trans‖ < _
    rw [e2, norm_smul]
    norm_num

end Mdso.Align
