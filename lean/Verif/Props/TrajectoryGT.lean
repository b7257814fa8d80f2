import Verif.Lemmas.CloudWriter
import Verif.Props.TrajectoryWriter

/-!
# C62: contents of the ground truth pose file
-/

set_option autoImplicit false

namespace Mdso.Traj
open Mdso.Dso

variable {G : Type}

/-- The ground truth table after alignment, and lines taken from it. -/
structure AInv (table : List G) (w : WriterGT G) : Prop where
  aligned : w.aligned = table
  lines : ∀ l ∈ w.lines, table[l.1.toNat]? = some l.2

theorem lookup_some {table : List G} {n : Int} {g : G} (h : lookup table n = .ok g) :
    table[n.toNat]? = some g := by
  unfold lookup at h
  split at h
  · split at h
    · cases h; assumption
    · cases h
  · cases h

theorem put_ainv [Group G] {table : List G} {w w' : WriterGT G} (h : AInv table w) {n : Int}
    (e : w.put n = .ok w') : AInv table w' := by
  unfold WriterGT.put at e
  split at e
  · rename_i u a hu ha
    cases e
    refine ⟨h.aligned, fun l hl => ?_⟩
    rcases List.mem_append.1 hl with hl | hl
    · exact h.lines l hl
    · rw [List.mem_singleton.1 hl]
      have := lookup_some ha
      rw [h.aligned] at this
      exact this
  · cases e

theorem puts_ainv [Group G] {table : List G} : ∀ (ms : List Int) {w w' : WriterGT G}, AInv table w →
    ms.foldlM WriterGT.put w = .ok w' → AInv table w'
  | [], w, w', h, e => by cases e; exact h
  | n :: ms, w, w', h, e => by
    rw [List.foldlM_cons] at e
    cases e1 : w.put n with
    | error x => rw [e1] at e; cases e
    | ok w1 => rw [e1] at e; exact puts_ainv ms (put_ainv h e1) e

theorem steps_ainv [Group G] {align : G → G → G → G → G → G} {table : List G} :
    ∀ (log : List (Event G)) {w w' : WriterGT G}, AInv table w →
    (∀ e ∈ log, ∀ kfs, e ≠ .initialized kfs) → log.foldlM (WriterGT.step align) w = .ok w' → AInv table w'
  | [], w, w', h, _, e => by cases e; exact h
  | x :: log, w, w', h, hn, e => by
    rw [List.foldlM_cons] at e
    cases e1 : w.step align x with
    | error y => rw [e1] at e; cases e
    | ok w1 =>
      rw [e1] at e
      refine steps_ainv log ?_ (fun y hy => hn y (by simp [hy])) e
      cases x with
      | initialized kfs => exact absurd rfl (hn _ (by simp) kfs)
      | marginalized kfs => exact puts_ainv _ h e1
      | destructed kfs => exact puts_ainv _ h e1
      | newFrame n => cases e1; exact h
      | newKeyFrame kf => cases e1; exact h

/-- C62. For a table that covers the history: a life that was initialized starts its log with the two first
keyframes, and every line of the ground truth pose file carries the aligned ground truth pose of its frame,
where the alignment is the one between the estimated poses of those two keyframes at initialization and
their ground truth poses. A life without initialization leaves the file empty. -/
theorem C62_gt_poses [Group G] {set : Settings} (hv : Valid set) {s0 : State G}
    (hc : create set = .ok s0) {xs : List (FrameIn G)} (hl : Legal (xs.map (·.num)))
    (align : G → G → G → G → G → G) {gt : List G} (hg : ∀ x ∈ xs, x.num < gt.length) :
    ∃ s rs w, run set s0 xs = .ok (s, rs) ∧ writerGTOf align gt (destroy s) = .ok w ∧
      ((s.log = [] ∧ w.lines = []) ∨
        ∃ first last rest gFirst gLast, s.log = .initialized [first, last] :: rest ∧
          gt[first.num.toNat]? = some gFirst ∧ gt[last.num.toNat]? = some gLast ∧
          ∀ l ∈ w.lines, ∃ g, gt[l.1.toNat]? = some g ∧
            l.2 = align first.thisToWorld⁻¹ last.thisToWorld⁻¹ gFirst gLast g) := by
  obtain ⟨s, rs, e, hi, hh, hd⟩ := Cloud.run_create_logHead hv hc hl
  have hcov := covers_log hi (gt := gt) (by simpa using hg) hd
  have hg0 : GInv gt (WriterGT.init gt) [] := ⟨rfl, rfl, rfl, rfl, by simp [WriterGT.init]⟩
  obtain ⟨w, ew, hw⟩ := gsteps_ok (align := align) (destroy s) hg0 hcov
  refine ⟨s, rs, w, e, ew, ?_⟩
  unfold Cloud.LogHead at hh
  split at hh
  · right
    obtain ⟨k0, k1, rest, hlog, h0, h1, hrest⟩ := hh
    have hc0 := hcov (.initialized [k0, k1]) (by rw [hlog]; simp)
    obtain ⟨gf, lf, hgf⟩ := lookup_ok (hc0.2 k0 (by simp))
    obtain ⟨gl, ll, hgl⟩ := lookup_ok (hc0.2 k1 (by simp))
    refine ⟨k0, k1, rest, gf, gl, hlog, hgf, hgl, ?_⟩
    have hdes : destroy s = .initialized [k0, k1] :: (rest ++ [.destructed s.keyFrames]) := by
      unfold destroy; rw [hlog]; rfl
    have hstep : (WriterGT.init gt).step align (.initialized [k0, k1]) =
        .ok { WriterGT.init gt with
          aligned := gt.map (align k0.thisToWorld⁻¹ k1.thisToWorld⁻¹ gf gl) } := by
      unfold WriterGT.step WriterGT.initialized
      simp only [List.head?_cons, List.getLast?_cons_cons, List.getLast?_singleton]
      rw [if_pos (by simp)]
      simp only [WriterGT.init, lf, ll]
    rw [hdes, List.foldlM_cons, hstep] at ew
    have ha := steps_ainv (table := gt.map (align k0.thisToWorld⁻¹ k1.thisToWorld⁻¹ gf gl)) _
      ⟨rfl, by simp [WriterGT.init]⟩ (fun y hy kfs => by
        rcases List.mem_append.1 hy with h | h
        · exact hrest y h kfs
        · rw [List.mem_singleton.1 h]; simp) ew
    intro l hl
    have := ha.lines l hl
    rw [List.getElem?_map, Option.map_eq_some_iff] at this
    obtain ⟨g, hg1, hg2⟩ := this
    exact ⟨g, hg1, hg2.symm⟩
  · left
    refine ⟨hh, ?_⟩
    have hb : FrameSpec.book (policyOf set) (xs.map (·.num)) = [] := FrameSpec.book_lt (by omega)
    have hk : s.keyFrames = [] := by
      have := hi.window; rw [hb] at this; simpa using this
    have : destroy s = [.destructed []] := by unfold destroy; rw [hh, hk]; rfl
    rw [this] at ew
    cases ew
    rfl

-- A life of nine frames with alignment by a translation of the line.
example := C62_gt_poses (G := Multiplicative Int) exValid exState_created exLegal
  (fun f _ gf _ g => g * gf⁻¹ * f) (gt := List.replicate 10 1) (by decide)

end Mdso.Traj
