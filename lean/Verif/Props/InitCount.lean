import Verif.Spec.InitCount
import Verif.Props.Initializer

/-!
# C166: how many points the first two keyframes get
-/

set_option autoImplicit false

namespace Mdso.Init

open Mdso.Geom Mdso.Tri Mdso.Tri.Spec Mdso.Init.Spec

/-- Points at the given pixels that are active where a pattern fits. -/
def At (S : Setup) (ips : List IPoint) (ps : List V2) : Prop :=
  List.Forall₂ (fun ip p => ip.p = p ∧ (ip.pt.state = .active ↔ S.onPatch p = true)) ips ps

theorem at_add (S : Setup) (ps : List V2) : At S (addImmatures S ps) ps := by
  unfold At addImmatures
  induction ps with
  | nil => exact .nil
  | cons p ps ih =>
    refine .cons ⟨rfl, ?_⟩ ih
    simp only [Trace.new]
    by_cases h : S.onPatch p = true
    · rw [if_pos h]; simp [h]
    · rw [if_neg h]; simp [h]

theorem at_construct (S : Setup) (i : Nat) : At S (construct S i) (S.select i S.pointsNum) := by
  have := at_add S (S.select i S.pointsNum)
  unfold construct
  unfold At at this ⊢
  rw [List.forall₂_map_left_iff]
  exact this.imp fun _ _ h => h

theorem at_asked {S : Setup} {ips : List IPoint} {ps : List V2} (h : At S ips ps) : asked S ips = (ps.filter S.onPatch).map S.unmap := by
  induction h with
  | nil => rfl
  | cons h _ ih =>
    rw [asked, ih, h.1]
    split
    · next ha => rw [List.filter_cons_of_pos (h.2.1 ha)]; rfl
    · next ha => rw [List.filter_cons_of_neg (fun hp => ha (h.2.2 hp))]

theorem kept_length {S : Setup} {ips : List IPoint} {ps : List V2} (h : At S ips ps) (st : List Sector) :
    (kept S st ips).length = inside S st ps := by
  induction h generalizing st with
  | nil => rfl
  | @cons ip p ips ps h _ ih =>
    unfold kept at ih ⊢
    rw [mark_cons, erase_eq, List.filter_cons, ← erase_eq, inside]
    have e : (eraseInactive (markSpherical S (lookedUp S.L st (asked S [ip])) ips).1).length = inside S (lookedUp S.L st (asked S [ip])) ps := ih _
    by_cases hp : S.onPatch p = true
    · have ha := h.2.2 hp
      rw [if_pos hp]
      have hask : asked S [ip] = [S.unmap p] := by rw [asked, if_pos ha, h.1]; rfl
      rw [hask] at e ⊢
      by_cases hd : (sphericalDepth S.L st (S.unmap p)).1 = none
      · rw [if_pos hd, zero_add, ← e]
        have : (verdict S st ip).pt.state ≠ .active := by
          intro hv
          obtain ⟨-, d, hd', -⟩ := verdict_active hv
          rw [h.1, hd] at hd'
          cases hd'
        rw [if_neg (by simpa using this)]
      · rw [if_neg hd, ← e]
        have : (verdict S st ip).pt.state = .active := by
          unfold verdict
          rw [if_pos ha, h.1]
          cases hs : (sphericalDepth S.L st (S.unmap p)).1 with
          | none => exact absurd hs hd
          | some d => rfl
        rw [if_pos (by simpa using this), List.length_cons, Nat.add_comm]
    · have ha : ip.pt.state ≠ .active := fun ha => hp (h.2.1 ha)
      rw [if_neg hp]
      have hask : asked S [ip] = [] := by rw [asked, if_neg ha]; rfl
      rw [hask] at e ⊢
      have e0 : lookedUp S.L st [] = st := rfl
      rw [e0] at e ⊢
      rw [← e]
      have : (verdict S st ip).pt.state ≠ .active := fun hv => ha (verdict_active hv).1
      rw [if_neg (by simpa using this)]

/-- The number asked for. -/
theorem newPointsNeeded_spec {needed : Int} (h0 : 0 ≤ needed) {total count : Nat} {n : Int} (h : newPointsNeeded needed total count = .ok n) :
    0 < count ∧ n * count ≤ needed * total ∧ needed * total < (n + 1) * count := by
  have hc := newPointsNeeded_pos h
  have hpos : 0 < count := Nat.pos_of_ne_zero hc
  have hq : (0 : ℚ) < count := by exact_mod_cast hpos
  unfold newPointsNeeded at h
  rw [if_neg hc] at h
  simp only at h
  have hx : (0 : ℚ) ≤ needed * ((total : ℚ) / count) := mul_nonneg (by exact_mod_cast h0) (by positivity)
  rw [if_pos hx] at h
  split at h
  · obtain rfl := Except.ok.inj h
    refine ⟨hpos, ?_, ?_⟩
    · have := Int.floor_le (needed * ((total : ℚ) / count))
      rw [← mul_div_assoc, le_div_iff₀ hq] at this
      rw [← mul_div_assoc]
      exact_mod_cast this
    · have := Int.lt_floor_add_one (needed * ((total : ℚ) / count))
      rw [← mul_div_assoc, div_lt_iff₀ hq] at this
      rw [← mul_div_assoc]
      exact_mod_cast this
  · cases h

theorem rounds_one {S : Setup} (h0 : 0 ≤ S.pointsNeeded) {call : Nat → Int → List V2} {st : List Sector} {ips l : List IPoint} {first : List V2}
    (hat : At S ips first) (h : rounds S call 1 st ips = .ok l) : SelectedAgain S st first (call 0) l := by
  rw [rounds] at h
  simp only [bind, Except.bind] at h
  split at h
  · cases h
  · next n hn =>
    rw [rounds] at h
    simp only [bind, Except.bind] at h
    split at h
    · cases h
    · obtain rfl := Except.ok.inj h
      have hlen : ips.length = first.length := hat.length_eq
      have hk : (eraseInactive (markSpherical S st ips).1).length = inside S st first := kept_length hat st
      rw [(mark_spec S ips st).2.1, hk, hlen] at hn
      obtain ⟨h1, h2, h3⟩ := newPointsNeeded_spec h0 hn
      refine ⟨n, h1, h2, h3, ?_, ?_⟩
      · exact kept_sublist S _ (call 0 n)
      · rw [(mark_spec S ips st).1, at_asked hat]
        exact kept_length (at_add S (call 0 n)) _

/-- C166: if keyframes are created from spherical terrains, in each of them pixels are selected a second time, and their number is the number of points needed
times all pixels of the first selection by those for which the terrain reported a depth, rounded down; the points of the keyframe are those of the second
selection for which the terrain reports a depth. -/
theorem C166_reselection {S : Setup} (h0 : 0 ≤ S.pointsNeeded) {m0 m1 : Matched} {l0 l1 : List IPoint}
    (h : createKeyFrames S false m0 m1 = .ok (some (l0, l1))) : ∃ init0 init1,
      newSectors S.env S.arrange S.s (spatial S m0) (S.order 0) S.fuel = .ok (some init0) ∧
      newSectors S.env S.arrange S.s (spatial S m1) (S.order 1) S.fuel = .ok (some init1) ∧
      SelectedAgain S init0 (S.select 0 S.pointsNum) (S.select 2) l0 ∧ SelectedAgain S init1 (S.select 1 S.pointsNum) (S.select 3) l1 := by
  unfold createKeyFrames at h
  simp only [Bool.false_eq_true, if_false, createSpherical, depthedRays] at h
  by_cases g0 : m0.depths.length < m0.keyPoints.length
  · rw [if_pos g0] at h; cases h
  rw [if_neg g0] at h
  by_cases g1 : m1.depths.length < m1.keyPoints.length
  · rw [if_pos g1] at h; cases h
  rw [if_neg g1] at h
  simp only [bind, Except.bind] at h
  split at h
  · cases h
  next o0 e0 =>
  cases o0 with
  | none => cases h
  | some init0 =>
    simp only at h
    split at h
    · cases h
    next o1 e1 =>
    cases o1 with
    | none => cases h
    | some init1 =>
      simp only at h
      split at h
      · cases h
      next l0' f0 =>
      split at h
      · cases h
      next l1' f1 =>
      obtain ⟨rfl, rfl⟩ := Prod.mk.inj (Option.some.inj (Except.ok.inj h))
      exact ⟨init0, init1, e0, e1, rounds_one h0 (at_construct S 0) f0, rounds_one h0 (at_construct S 1) f1⟩

/-- C166: so a keyframe gets at least as many points as needed, if the second selection finds as many pixels as it is asked for, and at least the same share of
them is inside. -/
theorem C166_enough {S : Setup} (h0 : 0 ≤ S.pointsNeeded) {init : List Sector} {first : List V2} {second : Int → List V2} {l : List IPoint}
    (h : SelectedAgain S init first second l) (hfull : ∀ n, 0 ≤ n → ((second n).length : Int) = n)
    (hshare : ∀ n, inside S init first * (second n).length ≤ inside S (afterwards S init first) (second n) * first.length) :
    S.pointsNeeded ≤ l.length := by
  obtain ⟨n, h1, h2, h3, -, h5⟩ := h
  have hle : inside S init first ≤ first.length := by
    rw [← kept_length (at_add S first) init]
    simpa using (kept_sublist S init first).length_le
  have hn : 0 ≤ n := by
    by_contra hneg
    have h6 : (n + 1) * (inside S init first : Int) ≤ 0 := mul_nonpos_of_nonpos_of_nonneg (by omega) (by positivity)
    have h7 : 0 ≤ S.pointsNeeded * (first.length : Int) := mul_nonneg h0 (by positivity)
    omega
  have h6 := hshare n
  have h7 := hfull n hn
  rw [← h5] at h6
  have h8 : (inside S init first : Int) * n ≤ l.length * first.length := by rw [← h7]; exact_mod_cast h6
  have hf : (0 : Int) < first.length := by omega
  by_contra hlt
  have h9 : ((l.length : Int) + 1) * first.length ≤ S.pointsNeeded * first.length := by
    apply mul_le_mul_of_nonneg_right (by omega) hf.le
  have h10 : (inside S init first : Int) ≤ first.length := by exact_mod_cast hle
  nlinarith

/-! ### Demonstration -/

/-- The hypotheses are met by the case with four key points. -/
example {L : Linear} (hL : Exact L) : ∃ l0 l1, createKeyFrames (sphereSetup L [⟨1, 1⟩]) false sphereMatched sphereMatched = .ok (some (l0, l1)) ∧
    (0 : Int) ≤ (sphereSetup L [⟨1, 1⟩]).pointsNeeded ∧ l0.length = 1 := by
  obtain ⟨l0, l1, h⟩ := sphere_created hL
  refine ⟨l0, l1, h, by norm_num [sphereSetup], ?_⟩
  obtain ⟨i0, i1, -, -, ⟨n, -, -, -, h1, h2⟩, -⟩ := C166_reselection (by norm_num [sphereSetup]) h
  have h3 := h1.length_le
  simp [sphereSetup] at h3
  obtain ⟨_, _, -, -, -, -, hne, -⟩ := spherical_spec h
  have := List.length_pos_iff.2 hne
  omega

/-- A selector that finds as many pixels as asked for, all of them inside: every frame gets what it needs. -/
example {S : Setup} (h7 : S.pointsNeeded = 7) (hsel : ∀ i n, (S.select i n).length = n.toNat) {init : List Sector} {l : List IPoint}
    (hin : ∀ st i n, inside S st (S.select i n) = n.toNat) (h : SelectedAgain S init (S.select 0 S.pointsNum) (S.select 2) l) : 7 ≤ l.length := by
  have := C166_enough (by omega) h (fun n hn => by rw [hsel]; omega) (fun n => by rw [hin, hin, hsel, hsel]; exact le_of_eq (Nat.mul_comm _ _))
  omega

end Mdso.Init
