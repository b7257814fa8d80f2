import Verif.Lemmas.SphericalPlus

/-!
# C52: bundle adjustment keeps the gauge

Theorems about the model of `BundleAdjuster::adjust` and `SphericalPlus` (`Verif/Model/SphericalPlus.lean`).
The claim "the distance of the second keyframe to the first one is kept for every step" is false of the
code: `C52_distance_violated`.
-/

set_option autoImplicit false

namespace Mdso.Gauge

open Mdso.Geom Mdso.Geom.V3

variable {Q L : Type}

/-- Specification: the keyframe at place `j` is the one whose distance is meant to be fixed, the first one in
the container that is not the reference keyframe. -/
def IsSecond (kfs : List (Kf Q L)) (first : Nat) (j : Nat) (sec : Kf Q L) : Prop :=
  kfs[j]? = some sec ∧ sec.id ≠ first ∧ ∀ (i : Nat) kf, i < j → kfs[i]? = some kf → kf.id = first

/-- Specification: distinct keyframes have distinct addresses. -/
def Distinct (kfs : List (Kf Q L)) : Prop :=
  ∀ (i j : Nat) a b, kfs[i]? = some a → kfs[j]? = some b → a.id = b.id → i = j

/-- C52, first half: whatever the solver does, the pose and the light transform of the first keyframe are
unchanged. -/
theorem C52_first_fixed (s : Settings) (kfs out : List (Kf Q L)) (first : Nat) (steps : List (Step Q L))
    (h : adjust s kfs first steps = .ok out) (i : Nat) (f : Kf Q L) (hf : kfs[i]? = some f)
    (hid : f.id = first) : out[i]? = some f := by
  obtain ⟨f', sec, p, hf', hs, hp, hout⟩ := adjust_ok h
  have hne : f.id ≠ sec.id := by
    have := List.find?_some hs
    intro he; rw [← he, hid] at this; simp at this
  rw [hout, hf]
  subst hid
  simp only [Option.map_some]
  rw [fold_first steps f hne]

theorem second_run {s : Settings} {kfs out : List (Kf Q L)} {first : Nat} {steps : List (Step Q L)}
    (h : adjust s kfs first steps = .ok out) {i j : Nat} {f sec : Kf Q L} (hd : Distinct kfs)
    (hf : kfs[i]? = some f) (hid : f.id = first) (hs : IsSecond kfs first j sec) :
    ∃ p, mk' f.t (sec.t - f.t).norm sec.t = .ok p ∧ sec.id ≠ first ∧
      out[j]? = some (steps.foldl
        (fun kf st => stepKf (decl s kfs.length first sec.id p kf.id) st kf) sec) := by
  obtain ⟨f', sec', p, hf', hs', hp, hout⟩ := adjust_ok h
  have ef : f' = f := by
    obtain ⟨i', a1, a2, -⟩ := find_index hf'
    have : f'.id = f.id := by rw [hid]; simpa using a2
    have hi := hd _ _ _ _ a1 hf this
    rw [hi, hf] at a1; cases a1; rfl
  have es : sec' = sec := by
    obtain ⟨j', a1, a2, a3⟩ := find_index hs'
    have hne : sec'.id ≠ first := by simpa using a2
    obtain ⟨b1, b2, b3⟩ := hs
    rcases Nat.lt_trichotomy j j' with hlt | heq | hgt
    · have := a3 j sec hlt b1; simp at this; exact absurd this b2
    · subst heq; rw [a1] at b1; cases b1; rfl
    · exact absurd (b3 j' sec' hgt a1) hne
  subst ef es
  refine ⟨p, hp, hs.2.1, ?_⟩
  rw [hout, hs.1]; rfl

/-- C52, second half, as far as it is true: after any sequence of solver steps the second keyframe is
either at its initial distance from the first one, or exactly at the first one's position. Missing: the
second alternative must not happen, and it can (`C52_distance_violated`); `C52_distance_unit` is a case in
which it cannot. -/
theorem C52_distance_partial (s : Settings) (kfs out : List (Kf Q L)) (first : Nat)
    (steps : List (Step Q L)) (h : adjust s kfs first steps = .ok out) (i j : Nat) (f sec : Kf Q L)
    (hd : Distinct kfs) (hf : kfs[i]? = some f) (hid : f.id = first) (hs : IsSecond kfs first j sec) :
    ∃ sec', out[j]? = some sec' ∧
      ((sec'.t - f.t).norm = (sec.t - f.t).norm ∨ sec'.t = f.t) := by
  obtain ⟨p, hp, hne, ho⟩ := second_run h hd hf hid hs
  refine ⟨_, ho, ?_⟩
  obtain ⟨hc, hr, -⟩ := mk'_ok hp
  clear ho h
  have gen : ∀ kf : Kf Q L, kf.id = sec.id →
      ((kf.t - f.t).norm = (sec.t - f.t).norm ∨ kf.t = f.t) →
      (((steps.foldl (fun kf st => stepKf (decl s kfs.length first sec.id p kf.id) st kf) kf).t
        - f.t).norm = (sec.t - f.t).norm ∨
       (steps.foldl (fun kf st => stepKf (decl s kfs.length first sec.id p kf.id) st kf) kf).t = f.t) := by
    induction steps with
    | nil => exact fun kf _ hk => hk
    | cons st steps ih =>
      intro kf hkid hk
      rw [List.foldl_cons]
      apply ih _ (by exact hkid)
      have hst := step_second (s := s) (n := kfs.length) (first := first) (p := p) kf (hkid ▸ hne) st
      rw [hkid] at hst ⊢
      rcases hst with e | e
      · rw [e]; exact hk
      · rw [e]
        by_cases hm : moved p kf.t (st.t2 sec.id) = 0
        · right
          unfold plus
          rw [hm, normalized_zero, hc]
          ext <;> simp
        · left
          have := dist_plus p kf.t (st.t2 sec.id) hm (hr ▸ norm_nonneg _)
          rw [hc, hr] at this
          exact this
  exact gen sec rfl (Or.inl rfl)

/-- One step of the parameterization about the origin with radius one, from a position that is not within
1/100 of the point opposite to the initial one, keeps the distance. -/
theorem C52_unit_step {i : V3} {p : SPlus} (h : mk' 0 1 i = .ok p) (hi : i.sqNorm = 1) (vec : V3)
    (hv : vec.sqNorm = 1) (hd : ¬ (vec + i).sqNorm < 1 / 10000) (d : ℝ × ℝ) :
    (plus p vec d).sqNorm = 1 := by
  obtain ⟨hc, hr, hk, -⟩ := mk'_ok h
  have hi0 : i - 0 = i := by ext <;> simp
  rw [hi0, normalized_of_unit hi] at hk
  obtain ⟨-, o2, -, -, o5⟩ := orts h (hk ▸ hi)
  have hm : moved p vec d ≠ 0 := by
    intro h0
    have := moved_dot p vec vec d
    rw [h0, rot_dot (hk ▸ hi) hv (hk ▸ hd), rot_dot (hk ▸ hi) hv (hk ▸ hd), o2, o5, hc] at this
    have e0 : vec.dot 0 = 0 := by simp [V3.dot]
    have e1 : vec - 0 = vec := by ext <;> simp
    have e2 : vec.dot vec = 1 := hv
    rw [e0, e1, e2] at this
    norm_num at this
  have : plus p vec d = (moved p vec d).normalized := by
    unfold plus; rw [hr, hc]; ext <;> simp
  rw [this, sqNorm_normalized hm]

/-- About the origin with radius one the parameterization is a chart: the zero step stays, and every point
of the open half sphere around the current position is reached by some step. -/
theorem C52_unit_chart {i : V3} {p : SPlus} (h : mk' 0 1 i = .ok p) (hi : i.sqNorm = 1) (vec : V3)
    (hv : vec.sqNorm = 1) (hd : ¬ (vec + i).sqNorm < 1 / 10000) :
    plus p vec (0, 0) = vec ∧
      ∀ w : V3, w.sqNorm = 1 → 0 < w.dot vec → ∃ d, plus p vec d = w := by
  obtain ⟨hc, hr, hk, -⟩ := mk'_ok h
  have hi0 : i - 0 = i := by ext <;> simp
  rw [hi0, normalized_of_unit hi] at hk
  have hk1 : p.k.sqNorm = 1 := hk ▸ hi
  have hd' : ¬ (vec + p.k).sqNorm < 1 / 10000 := hk ▸ hd
  obtain ⟨o1, o2, o3, o4, o5⟩ := orts h hk1
  have hplus : ∀ d, plus p vec d = (moved p vec d).normalized := by
    intro d; unfold plus; rw [hr, hc]; ext <;> simp
  have hmv : ∀ d : ℝ × ℝ, moved p vec d = vec + d.1 • rot p vec p.v1 + d.2 • rot p vec p.v2 := by
    intro d
    unfold moved rot
    rw [hc]
    simp only [if_neg hd']
    ext <;> simp [V3.dot] <;> ring
  constructor
  · rw [hplus, hmv]
    have : vec + (0 : ℝ) • rot p vec p.v1 + (0 : ℝ) • rot p vec p.v2 = vec := by ext <;> simp
    simp only [this]
    exact normalized_of_unit hv
  · intro w hw hpos
    have a1 : (rot p vec p.v1).sqNorm = 1 := (rot_iso hd' p.v1 p.v1).trans o1
    have a2 : vec.dot (rot p vec p.v1) = 0 := (rot_dot hk1 hv hd').trans o2
    have a3 : rot p vec p.v2 = vec.cross (rot p vec p.v1) := by
      rw [o3, ← rot_cross hd', rot_k hk1 hv hd']
    have a4 : (rot p vec p.v2).sqNorm = 1 := (rot_iso hd' p.v2 p.v2).trans o4
    have a5 : vec.dot (rot p vec p.v2) = 0 := (rot_dot hk1 hv hd').trans o5
    have a6 : (rot p vec p.v1).dot (rot p vec p.v2) = 0 := by
      rw [a3]; simp only [V3.dot, V3.cross]; ring
    generalize rot p vec p.v1 = e1 at *
    generalize rot p vec p.v2 = e2 at *
    refine ⟨(w.dot e1 / w.dot vec, w.dot e2 / w.dot vec), ?_⟩
    rw [hplus, hmv]
    have hexp : w = w.dot vec • vec + w.dot e1 • e1 + w.dot e2 • e2 := by
      have hz : w - (w.dot vec • vec + w.dot e1 • e1 + w.dot e2 • e2) = 0 := by
        apply eq_zero_of_orth hv a1 a2
        · have e : (w - (w.dot vec • vec + w.dot e1 • e1 + w.dot e2 • e2)).dot vec
              = w.dot vec - w.dot vec * vec.sqNorm - w.dot e1 * vec.dot e1 - w.dot e2 * vec.dot e2 := by
            simp [V3.dot, V3.sqNorm]; ring
          rw [e, hv, a2, a5]; ring
        · have e : (w - (w.dot vec • vec + w.dot e1 • e1 + w.dot e2 • e2)).dot e1
              = w.dot e1 - w.dot vec * vec.dot e1 - w.dot e1 * e1.sqNorm - w.dot e2 * e1.dot e2 := by
            simp [V3.dot, V3.sqNorm]; ring
          rw [e, a1, a2, a6]; ring
        · rw [← a3]
          have e : (w - (w.dot vec • vec + w.dot e1 • e1 + w.dot e2 • e2)).dot e2
              = w.dot e2 - w.dot vec * vec.dot e2 - w.dot e1 * e1.dot e2 - w.dot e2 * e2.sqNorm := by
            simp [V3.dot, V3.sqNorm]; ring
          rw [e, a4, a5, a6]; ring
      ext
      · have := congrArg V3.x hz; simp only [sub_x, zero_x] at this; linarith
      · have := congrArg V3.y hz; simp only [sub_y, zero_y] at this; linarith
      · have := congrArg V3.z hz; simp only [sub_z, zero_z] at this; linarith
    have hm : vec + (w.dot e1 / w.dot vec) • e1 + (w.dot e2 / w.dot vec) • e2 = (1 / w.dot vec) • w := by
      have hne := hpos.ne'
      ext
      · have hx := congrArg V3.x hexp
        simp only [add_x, smul_x] at hx ⊢
        field_simp; linarith
      · have hx := congrArg V3.y hexp
        simp only [add_y, smul_y] at hx ⊢
        field_simp; linarith
      · have hx := congrArg V3.z hexp
        simp only [add_z, smul_z] at hx ⊢
        field_simp; linarith
    simp only [hm]
    have hq : (0 : ℝ) < 1 / w.dot vec := by positivity
    have hne0 : (1 / w.dot vec) • w ≠ 0 := by
      intro h0
      have hsq := sqNorm_smul (1 / w.dot vec) w
      rw [h0, hw] at hsq
      have z : (0 : V3).sqNorm = 0 := by simp [V3.sqNorm]
      rw [z] at hsq
      have : 0 < 1 / w.dot vec * (1 / w.dot vec) * 1 := by positivity
      linarith
    rw [normalized_eq hne0, norm_smul hq.le, norm_eq_one hw]
    have hne := hpos.ne'
    ext <;> simp <;> field_simp

/-- C52 in the situation after initialization: the first keyframe is at the origin of the world and the
second at distance one. As long as the second keyframe does not come within 1/100 of the point opposite to
its initial position, every sequence of solver steps keeps its distance. -/
theorem C52_distance_unit (s : Settings) (kfs : List (Kf Q L)) (first : Nat) (i j : Nat) (f sec : Kf Q L)
    (hd : Distinct kfs) (hf : kfs[i]? = some f) (hid : f.id = first) (hs : IsSecond kfs first j sec)
    (h0 : f.t = 0) (h1 : sec.t.sqNorm = 1) (steps : List (Step Q L))
    (hfar : ∀ n out kf, n < steps.length → adjust s kfs first (steps.take n) = .ok out →
      out[j]? = some kf → ¬ (kf.t + sec.t).sqNorm < 1 / 10000)
    (out : List (Kf Q L)) (h : adjust s kfs first steps = .ok out) :
    ∃ sec', out[j]? = some sec' ∧ (sec'.t - f.t).norm = 1 := by
  have hpt : ∀ n, n ≤ steps.length → ∀ out, adjust s kfs first (steps.take n) = .ok out →
      ∃ sec', out[j]? = some sec' ∧ sec'.t.sqNorm = 1 := by
    intro n
    induction n with
    | zero =>
      intro _ out ho
      obtain ⟨p, -, -, hj⟩ := second_run ho hd hf hid hs
      exact ⟨sec, by simpa using hj, h1⟩
    | succ n ih =>
      intro hn out ho
      obtain ⟨p, hp, hne, hj⟩ := second_run ho hd hf hid hs
      have hprev : ∃ out', adjust s kfs first (steps.take n) = .ok out' := by
        obtain ⟨f', sec', p', b1, b2, b3, -⟩ := adjust_ok ho
        unfold adjust
        rw [b1, b2]
        simp only [b3]
        exact ⟨_, rfl⟩
      obtain ⟨out', ho'⟩ := hprev
      obtain ⟨kf, hk1, hk2⟩ := ih (by omega) out' ho'
      have hfk := hfar n out' kf (by omega) ho' hk1
      obtain ⟨p', hp', -, hj'⟩ := second_run ho' hd hf hid hs
      rw [hp] at hp'; cases hp'
      rw [hk1] at hj'
      have hlast : steps.take (n + 1) = steps.take n ++ [steps[n]'(by omega)] := by
        rw [List.take_succ, List.getElem?_eq_getElem (by omega : n < steps.length)]; rfl
      rw [hlast, List.foldl_append] at hj
      simp only [List.foldl_cons, List.foldl_nil] at hj
      have hkid := fold_id (D := decl s kfs.length first sec.id p) (steps.take n) sec
      cases hj'
      refine ⟨_, hj, ?_⟩
      generalize hkf : List.foldl (fun kf st => stepKf (decl s kfs.length first sec.id p kf.id) st kf) sec
        (List.take n steps) = kf at *
      have hst := step_second (s := s) (n := kfs.length) (first := first) (p := p) kf (hkid ▸ hne)
        (steps[n]'(by omega))
      rw [hkid] at hst ⊢
      rcases hst with e | e
      · rw [e]; exact hk2
      · rw [e]
        have hz : sec.t - 0 = sec.t := by ext <;> simp
        rw [h0, hz, norm_eq_one h1] at hp
        exact C52_unit_step hp h1 kf.t hk2 hfk _
  obtain ⟨sec', e1, e2⟩ := hpt steps.length le_rfl out (by rw [List.take_length]; exact h)
  refine ⟨sec', e1, ?_⟩
  have hz : sec'.t - f.t = sec'.t := by rw [h0]; ext <;> simp
  rw [hz, norm_eq_one e2]

/-- Bundle adjustment ends normally exactly if the first keyframe is present, there is a second one, and
the two are not at the same place. With a single keyframe it is undefined behaviour; with two at the same
place a check fails. -/
theorem C52_outcome (s : Settings) (kfs : List (Kf Q L)) (first : Nat) (i : Nat) (f : Kf Q L)
    (hd : Distinct kfs) (hf : kfs[i]? = some f) (hid : f.id = first) (steps : List (Step Q L)) :
    ((∀ kf ∈ kfs, kf.id = first) → adjust s kfs first steps = .error .ub) ∧
    (∀ j sec, IsSecond kfs first j sec →
      (sec.t = f.t → adjust s kfs first steps = .error .abort) ∧
      (sec.t ≠ f.t → ∃ out, adjust s kfs first steps = .ok out)) := by
  constructor
  · intro hall
    have : kfs.find? (fun kf => kf.id != first) = none := by
      rw [List.find?_eq_none]; intro kf hkf; simp [hall kf hkf]
    unfold adjust
    rw [this]
    cases kfs.find? (fun kf => kf.id == first) <;> rfl
  · intro j sec hs
    have hf' : kfs.find? (fun kf => kf.id == first) = some f := by
      cases hh : kfs.find? (fun kf => kf.id == first) with
      | none =>
        rw [List.find?_eq_none] at hh
        have := hh f (List.mem_of_getElem? hf)
        simp [hid] at this
      | some g =>
        obtain ⟨i', a1, a2, -⟩ := find_index hh
        have : g.id = f.id := by rw [hid]; simpa using a2
        have hi := hd _ _ _ _ a1 hf this
        rw [hi, hf] at a1; cases a1; rfl
    have hs' : kfs.find? (fun kf => kf.id != first) = some sec := by
      obtain ⟨b1, b2, b3⟩ := hs
      cases hh : kfs.find? (fun kf => kf.id != first) with
      | none =>
        rw [List.find?_eq_none] at hh
        have := hh sec (List.mem_of_getElem? b1)
        simp at this; exact absurd this b2
      | some g =>
        obtain ⟨j', a1, a2, a3⟩ := find_index hh
        have hne : g.id ≠ first := by simpa using a2
        rcases Nat.lt_trichotomy j j' with hlt | heq | hgt
        · have := a3 j sec hlt b1; simp at this; exact absurd this b2
        · subst heq; rw [a1] at b1; cases b1; rfl
        · exact absurd (b3 j' g hgt a1) hne
    have hz : ∀ a b : V3, a - b = 0 → a = b := by
      intro a b h0
      ext
      · have := congrArg V3.x h0; simp at this; linarith
      · have := congrArg V3.y h0; simp at this; linarith
      · have := congrArg V3.z h0; simp at this; linarith
    constructor
    · intro he
      unfold adjust
      rw [hf', hs']
      have : (sec.t - f.t).norm = 0 := by
        rw [he]; simp [V3.norm, V3.sqNorm]
      simp only [this]
      unfold mk'
      simp
    · intro hne
      have hpos : 0 < (sec.t - f.t).norm := norm_pos fun h0 => hne (hz _ _ h0)
      unfold adjust
      rw [hf', hs']
      have : ∃ p, mk' f.t (sec.t - f.t).norm sec.t = .ok p := by
        unfold mk'
        have hc : (sec.t - f.t).norm ≠ 0 ∧
            ((sec.t - f.t).norm - (sec.t - f.t).norm) / (sec.t - f.t).norm < 1 / 10000 := by
          refine ⟨hpos.ne', ?_⟩
          rw [sub_self, zero_div]; norm_num
        simp only [if_pos hc]
        exact ⟨_, rfl⟩
      obtain ⟨p, hp⟩ := this
      simp only [hp]
      exact ⟨_, rfl⟩

/-! ### The violation -/

/-- The parameterization for a first keyframe at (0,2,0) and a second one at (1,2,0). -/
noncomputable def exP : SPlus :=
  { center := ⟨0, 2, 0⟩, radius := 1, k := ⟨1, 0, 0⟩, v1 := ⟨0, 0, 1⟩, v2 := ⟨0, -1, 0⟩ }

theorem exP_mk : mk' ⟨0, 2, 0⟩ 1 ⟨1, 2, 0⟩ = .ok exP := by
  have hd : (⟨1, 2, 0⟩ : V3) - ⟨0, 2, 0⟩ = ⟨1, 0, 0⟩ := by ext <;> simp
  have hk : (⟨1, 0, 0⟩ : V3).sqNorm = 1 := by norm_num [V3.sqNorm]
  have hv1 : (⟨0, 0, 1⟩ : V3).normalized = ⟨0, 0, 1⟩ := normalized_of_unit (by norm_num [V3.sqNorm])
  have hv2 : (⟨0, -1, 0⟩ : V3).normalized = ⟨0, -1, 0⟩ := normalized_of_unit (by norm_num [V3.sqNorm])
  have hm : minI ⟨1, 0, 0⟩ = 1 := by unfold minI; norm_num
  unfold mk'
  rw [hd, normalized_of_unit hk, norm_eq_one hk]
  have hc : (1 : ℝ) ≠ 0 ∧ ((1 : ℝ) - 1) / 1 < 1 / 10000 := by norm_num
  have e2 : (⟨1, 0, 0⟩ : V3).cross ⟨0, 0, 1⟩ = ⟨0, -1, 0⟩ := by ext <;> simp [V3.cross]
  simp only [if_pos hc, hm]
  norm_num
  rw [hv1, e2, hv2]; rfl

theorem exP_moved (d : ℝ × ℝ) : moved exP ⟨1, 2, 0⟩ d = ⟨1 - d.2, 0, -d.1⟩ := by
  unfold moved rot exP
  have h : ¬ ((⟨1, 2, 0⟩ : V3) + ⟨1, 0, 0⟩).sqNorm < 1 / 10000 := by norm_num [V3.sqNorm]
  simp only [if_neg h]
  ext <;> simp [V3.sqNorm, V3.dot] <;> ring

/-- The two keyframes of the witness. -/
def exKfs : List (Kf Unit Unit) := [⟨0, ⟨0, 2, 0⟩, (), ()⟩, ⟨1, ⟨1, 2, 0⟩, (), ()⟩]

/-- All blocks may move. -/
def exSettings : Settings := ⟨false, false, true⟩

/-- The solver step of the witness: the translation of the moving keyframe gets the increment (0,1). -/
def exStep : Step Unit Unit := ⟨fun _ => 0, fun _ => (0, 1), fun _ => (), fun _ => ()⟩

theorem exKfs_distinct : Distinct exKfs := by
  intro i j a b ha hb hab
  match i, j with
  | 0, 0 => rfl
  | 1, 1 => rfl
  | 0, 1 => simp only [exKfs, List.getElem?_cons_zero, List.getElem?_cons_succ] at ha hb; cases ha; cases hb; cases hab
  | 1, 0 => simp only [exKfs, List.getElem?_cons_zero, List.getElem?_cons_succ] at ha hb; cases ha; cases hb; cases hab
  | i + 2, _ => cases ha
  | 0, j + 2 => cases hb
  | 1, j + 2 => cases hb

theorem exKfs_second : IsSecond exKfs 0 1 ⟨1, ⟨1, 2, 0⟩, (), ()⟩ := by
  refine ⟨rfl, by decide, ?_⟩
  intro i kf hi hk
  match i with
  | 0 => cases hk; rfl

theorem exAdjust : ∃ out, adjust exSettings exKfs 0 [exStep] = .ok out ∧
    out[0]? = some ⟨0, ⟨0, 2, 0⟩, (), ()⟩ ∧ out[1]? = some ⟨1, ⟨0, 2, 0⟩, (), ()⟩ := by
  obtain ⟨out, ho⟩ := ((C52_outcome exSettings exKfs 0 0 ⟨0, ⟨0, 2, 0⟩, (), ()⟩ exKfs_distinct rfl rfl
    [exStep]).2 1 _ exKfs_second).2 (by
      intro h; have := congrArg V3.x h; norm_num at this)
  refine ⟨out, ho, C52_first_fixed _ _ _ _ _ ho 0 _ rfl rfl, ?_⟩
  obtain ⟨p, hp, -, hj⟩ := second_run (f := ⟨0, ⟨0, 2, 0⟩, (), ()⟩) (i := 0) ho exKfs_distinct rfl rfl
    exKfs_second
  have hn : ((⟨1, 2, 0⟩ : V3) - ⟨0, 2, 0⟩).norm = 1 := norm_eq_one (by simp [V3.sqNorm])
  simp only [hn] at hp
  rw [exP_mk] at hp
  cases hp
  rw [hj]
  have hpl : plus exP ⟨1, 2, 0⟩ (0, 1) = ⟨0, 2, 0⟩ := by
    unfold plus
    rw [exP_moved]
    have : (⟨1 - ((0, 1) : ℝ × ℝ).2, 0, -((0, 1) : ℝ × ℝ).1⟩ : V3) = 0 := by ext <;> simp
    rw [this, normalized_zero]
    ext <;> simp [exP]
  simp only [List.foldl_cons, List.foldl_nil, stepKf, decl, exSettings, exStep]
  simp [hpl]

/-- C52 is violated: with the first keyframe at (0,2,0) and the second at (1,2,0), at distance one, a single
solver step of length one puts the second keyframe onto the first. The cause is that
include/system/SphericalPlus.h:48 computes the rotation axis from the absolute position, before the centre
is subtracted. -/
theorem C52_distance_violated :
    ¬ ∀ (s : Settings) (kfs out : List (Kf Unit Unit)) (first : Nat) (steps : List (Step Unit Unit)),
      adjust s kfs first steps = .ok out → ∀ (i j : Nat) (f sec : Kf Unit Unit),
      Distinct kfs → kfs[i]? = some f → f.id = first → IsSecond kfs first j sec →
      ∃ sec', out[j]? = some sec' ∧ (sec'.t - f.t).norm = (sec.t - f.t).norm := by
  intro hall
  obtain ⟨out, ho, -, h1⟩ := exAdjust
  obtain ⟨sec', e1, e2⟩ := hall _ _ _ _ _ ho 0 1 _ _ exKfs_distinct rfl rfl exKfs_second
  rw [h1] at e1
  cases e1
  simp only at e2
  have hn : ((⟨1, 2, 0⟩ : V3) - ⟨0, 2, 0⟩).norm = 1 := norm_eq_one (by simp [V3.sqNorm])
  rw [hn] at e2
  simp [V3.norm, V3.sqNorm] at e2

/-- In the same situation the parameterization is no chart: no single step leaves the plane `y = 2`, and
shortening steps in one of its two directions do not move at all. -/
theorem C52_lost_direction :
    mk' ⟨0, 2, 0⟩ 1 ⟨1, 2, 0⟩ = .ok exP ∧ (∀ d, (plus exP ⟨1, 2, 0⟩ d).y = 2) ∧
      ∀ b : ℝ, b < 1 → plus exP ⟨1, 2, 0⟩ (0, b) = ⟨1, 2, 0⟩ := by
  refine ⟨exP_mk, ?_, ?_⟩
  · intro d
    unfold plus
    rw [exP_moved]
    have : (⟨1 - d.2, 0, -d.1⟩ : V3).normalized.y = 0 := by
      unfold V3.normalized
      split <;> simp
    simp [this, exP]
  · intro b hb
    unfold plus
    rw [exP_moved]
    have hn : (⟨1 - ((0, b) : ℝ × ℝ).2, 0, -((0, b) : ℝ × ℝ).1⟩ : V3) = (1 - b) • ⟨1, 0, 0⟩ := by
      ext <;> simp
    have hpos : 0 < 1 - b := by linarith
    have hne : ((1 - b) • (⟨1, 0, 0⟩ : V3)) ≠ 0 := by
      intro h; have := congrArg V3.x h; simp at this; linarith
    have h1 : (⟨1, 0, 0⟩ : V3).norm = 1 := norm_eq_one (by simp [V3.sqNorm])
    rw [hn, normalized_eq hne, norm_smul hpos.le, h1]
    have := hpos.ne'
    ext <;> simp [exP] <;> field_simp

/-! ### The violation at the opposite point -/

/-- The parameterization for a first keyframe at the origin and a second one at (119/169,120/169,0). -/
noncomputable def opP : SPlus :=
  { center := 0, radius := 1, k := ⟨119 / 169, 120 / 169, 0⟩, v1 := ⟨-(120 / 169), 119 / 169, 0⟩, v2 := ⟨0, 0, 1⟩ }

theorem opP_mk : mk' 0 1 ⟨119 / 169, 120 / 169, 0⟩ = .ok opP := by
  have hd : (⟨119 / 169, 120 / 169, 0⟩ : V3) - 0 = ⟨119 / 169, 120 / 169, 0⟩ := by ext <;> simp
  have hk : (⟨119 / 169, 120 / 169, 0⟩ : V3).sqNorm = 1 := by norm_num [V3.sqNorm]
  have hv1 : (⟨-(120 / 169), 119 / 169, 0⟩ : V3).normalized = ⟨-(120 / 169), 119 / 169, 0⟩ :=
    normalized_of_unit (by norm_num [V3.sqNorm])
  have hv2 : (⟨0, 0, 1⟩ : V3).normalized = ⟨0, 0, 1⟩ := normalized_of_unit (by norm_num [V3.sqNorm])
  have hm : minI ⟨119 / 169, 120 / 169, 0⟩ = 2 := by
    unfold minI
    have a1 : |(119 / 169 : ℝ)| = 119 / 169 := abs_of_pos (by norm_num)
    have a2 : |(120 / 169 : ℝ)| = 120 / 169 := abs_of_pos (by norm_num)
    simp only [a1, a2, abs_zero]
    norm_num
  unfold mk'
  rw [hd, normalized_of_unit hk, norm_eq_one hk]
  have hc : (1 : ℝ) ≠ 0 ∧ ((1 : ℝ) - 1) / 1 < 1 / 10000 := by norm_num
  have e2 : (⟨119 / 169, 120 / 169, 0⟩ : V3).cross ⟨-(120 / 169), 119 / 169, 0⟩ = ⟨0, 0, 1⟩ := by
    ext <;> norm_num [V3.cross]
  simp only [if_pos hc, hm]
  norm_num
  rw [hv1, e2, hv2]; rfl

/-- From a position within 1/100 of the opposite point one step leads to the centre. -/
theorem opP_collapse : plus opP ⟨-(120 / 169), -(119 / 169), 0⟩ (-1, 0) = 0 := by
  have hm : moved opP ⟨-(120 / 169), -(119 / 169), 0⟩ (-1, 0) = 0 := by
    unfold moved rot opP
    have h : ((⟨-(120 / 169), -(119 / 169), 0⟩ : V3) + ⟨119 / 169, 120 / 169, 0⟩).sqNorm < 1 / 10000 := by
      norm_num [V3.sqNorm]
    simp only [if_pos h]
    ext <;> simp [degenerateR]
  unfold plus
  rw [hm, normalized_zero]
  ext <;> simp [opP]

/-- The two keyframes of the witness. -/
noncomputable def opKfs : List (Kf Unit Unit) := [⟨0, 0, (), ()⟩, ⟨1, ⟨119 / 169, 120 / 169, 0⟩, (), ()⟩]

/-- A solver step that moves the second keyframe by `d`. -/
def opStep (d : ℝ × ℝ) : Step Unit Unit := ⟨fun _ => 0, fun _ => d, fun _ => (), fun _ => ()⟩

theorem opKfs_distinct : Distinct opKfs := by
  intro i j a b ha hb hab
  match i, j with
  | 0, 0 => rfl
  | 1, 1 => rfl
  | 0, 1 => simp only [opKfs, List.getElem?_cons_zero, List.getElem?_cons_succ] at ha hb; cases ha; cases hb; cases hab
  | 1, 0 => simp only [opKfs, List.getElem?_cons_zero, List.getElem?_cons_succ] at ha hb; cases ha; cases hb; cases hab
  | i + 2, _ => cases ha
  | 0, j + 2 => cases hb
  | 1, j + 2 => cases hb

theorem opKfs_second : IsSecond opKfs 0 1 ⟨1, ⟨119 / 169, 120 / 169, 0⟩, (), ()⟩ := by
  refine ⟨rfl, by decide, ?_⟩
  intro i kf hi hk
  match i with
  | 0 => cases hk; rfl

/-- C52 is violated also in the situation after initialization, with the first keyframe at the origin and
the second at distance one: the matrix used near the opposite point (source/system/SphericalPlus.cpp:6-10)
does not turn the tangent directions into ones at the opposite point. From (119/169,120/169,0) three steps
lead the second keyframe to within 1/100 of the opposite point, at distance one all the time, and a fourth
one puts it onto the first. So the hypothesis `hfar` of `C52_distance_unit` cannot be left out. -/
theorem C52_opposite_violated :
    ∃ (steps : List (Step Unit Unit)) (out : List (Kf Unit Unit)), steps.length = 4 ∧
      adjust exSettings opKfs 0 steps = .ok out ∧ out[0]? = some ⟨0, 0, (), ()⟩ ∧
      out[1]? = some ⟨1, 0, (), ()⟩ ∧
      ∀ n < 4, ∃ out' kf, adjust exSettings opKfs 0 (steps.take n) = .ok out' ∧ out'[1]? = some kf ∧
        kf.t.norm = 1 := by
  have hi : (⟨119 / 169, 120 / 169, 0⟩ : V3).sqNorm = 1 := by norm_num [V3.sqNorm]
  have ha : (⟨-(7 / 25), 24 / 25, 0⟩ : V3).sqNorm = 1 := by norm_num [V3.sqNorm]
  have hb : (⟨-(24 / 25), 7 / 25, 0⟩ : V3).sqNorm = 1 := by norm_num [V3.sqNorm]
  have hc : (⟨-(120 / 169), -(119 / 169), 0⟩ : V3).sqNorm = 1 := by norm_num [V3.sqNorm]
  obtain ⟨d1, h1⟩ := (C52_unit_chart opP_mk hi _ hi (by norm_num [V3.sqNorm])).2 _ ha (by norm_num [V3.dot])
  obtain ⟨d2, h2⟩ := (C52_unit_chart opP_mk hi _ ha (by norm_num [V3.sqNorm])).2 _ hb (by norm_num [V3.dot])
  obtain ⟨d3, h3⟩ := (C52_unit_chart opP_mk hi _ hb (by norm_num [V3.sqNorm])).2 _ hc (by norm_num [V3.dot])
  have hn : ((⟨119 / 169, 120 / 169, 0⟩ : V3) - 0).norm = 1 := by
    have hz : (⟨119 / 169, 120 / 169, 0⟩ : V3) - 0 = ⟨119 / 169, 120 / 169, 0⟩ := by ext <;> simp
    rw [hz, norm_eq_one hi]
  have run : ∀ steps : List (Step Unit Unit), ∃ out, adjust exSettings opKfs 0 steps = .ok out ∧
      out[1]? = some (steps.foldl (fun kf st => stepKf (decl exSettings 2 0 1 opP kf.id) st kf)
        ⟨1, ⟨119 / 169, 120 / 169, 0⟩, (), ()⟩) := by
    intro steps
    obtain ⟨out, ho⟩ := ((C52_outcome exSettings opKfs 0 0 ⟨0, 0, (), ()⟩ opKfs_distinct rfl rfl
      steps).2 1 _ opKfs_second).2 (by intro h; have := congrArg V3.x h; norm_num at this)
    refine ⟨out, ho, ?_⟩
    obtain ⟨p, hp, -, hj⟩ := second_run (f := ⟨0, 0, (), ()⟩) (i := 0) ho opKfs_distinct rfl rfl opKfs_second
    simp only [hn] at hp
    rw [opP_mk] at hp
    cases hp
    exact hj
  have step : ∀ (v : V3) (d : ℝ × ℝ), stepKf (decl exSettings 2 0 1 opP 1) (opStep d) ⟨1, v, (), ()⟩ =
      (⟨1, plus opP v d, (), ()⟩ : Kf Unit Unit) := by
    intro v d
    simp [stepKf, decl, exSettings, opStep]
  obtain ⟨out, ho, e⟩ := run [opStep d1, opStep d2, opStep d3, opStep (-1, 0)]
  refine ⟨_, out, rfl, ho, C52_first_fixed _ _ _ _ _ ho 0 _ rfl rfl, ?_, ?_⟩
  · rw [e]
    simp only [List.foldl_cons, List.foldl_nil, step, h1, h2, h3, opP_collapse]
  · intro n hn4
    obtain ⟨out', ho', e'⟩ := run (([opStep d1, opStep d2, opStep d3, opStep (-1, 0)] : List _).take n)
    refine ⟨out', _, ho', e', ?_⟩
    match n, hn4 with
    | 0, _ => simpa using norm_eq_one hi
    | 1, _ =>
      simp only [List.take_succ_cons, List.take_zero, List.foldl_cons, List.foldl_nil, step, h1]
      exact norm_eq_one ha
    | 2, _ =>
      simp only [List.take_succ_cons, List.take_zero, List.foldl_cons, List.foldl_nil, step, h1, h2]
      exact norm_eq_one hb
    | 3, _ =>
      simp only [List.take_succ_cons, List.take_zero, List.foldl_cons, List.foldl_nil, step, h1, h2, h3]
      exact norm_eq_one hc

/-- Non-vacuity of `C52_distance_partial`, `C52_first_fixed` and `C52_outcome`: the witness meets their
hypotheses. -/
example : ∃ out, adjust exSettings exKfs 0 [exStep] = .ok out ∧ Distinct exKfs ∧
    IsSecond exKfs 0 1 ⟨1, ⟨1, 2, 0⟩, (), ()⟩ :=
  let ⟨out, ho, _⟩ := exAdjust; ⟨out, ho, exKfs_distinct, exKfs_second⟩

/-- Non-vacuity of `C52_unit_step` and `C52_unit_chart`. -/
example : ∃ p, mk' 0 1 ⟨1, 0, 0⟩ = .ok p ∧ (⟨1, 0, 0⟩ : V3).sqNorm = 1 ∧ (⟨0, 1, 0⟩ : V3).sqNorm = 1 ∧
    ¬ ((⟨0, 1, 0⟩ : V3) + ⟨1, 0, 0⟩).sqNorm < 1 / 10000 := by
  have : ∃ p, mk' 0 1 ⟨1, 0, 0⟩ = .ok p := by
    unfold mk'
    have hz : (⟨1, 0, 0⟩ : V3) - 0 = ⟨1, 0, 0⟩ := by ext <;> simp
    have hc : (1 : ℝ) ≠ 0 ∧ (((⟨1, 0, 0⟩ : V3) - 0).norm - 1) / 1 < 1 / 10000 := by
      rw [hz, norm_eq_one (by norm_num [V3.sqNorm])]; norm_num
    simp only [if_pos hc]
    exact ⟨_, rfl⟩
  obtain ⟨p, hp⟩ := this
  exact ⟨p, hp, by norm_num [V3.sqNorm], by norm_num [V3.sqNorm], by norm_num [V3.sqNorm]⟩

/-- Non-vacuity of `C52_distance_unit`: two keyframes at the origin and at (1,0,0), an empty run and a run
of one arbitrary step. -/
example (st : Step Unit Unit) :
    let kfs : List (Kf Unit Unit) := [⟨0, 0, (), ()⟩, ⟨1, ⟨1, 0, 0⟩, (), ()⟩]
    IsSecond kfs 0 1 ⟨1, ⟨1, 0, 0⟩, (), ()⟩ ∧ (⟨1, 0, 0⟩ : V3).sqNorm = 1 ∧
      ∀ n out kf, n < [st].length → adjust exSettings kfs 0 ([st].take n) = .ok out →
        out[1]? = some kf → ¬ (kf.t + (⟨1, 0, 0⟩ : V3)).sqNorm < 1 / 10000 := by
  intro kfs
  have hs : IsSecond kfs 0 1 ⟨1, ⟨1, 0, 0⟩, (), ()⟩ := by
    refine ⟨rfl, by decide, ?_⟩
    intro i kf hi hk
    match i with
    | 0 => cases hk; rfl
  refine ⟨hs, by norm_num [V3.sqNorm], ?_⟩
  intro n out kf hn ho hk
  have h0 : n = 0 := by simp at hn; exact hn
  subst h0
  obtain ⟨_, _, _, _, _, _, hout⟩ := adjust_ok ho
  have := hout 1
  simp only [List.take_zero, List.foldl_nil] at this
  rw [this] at hk
  cases hk
  norm_num [V3.sqNorm]

end Mdso.Gauge
