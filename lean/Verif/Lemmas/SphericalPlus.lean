import Verif.Model.SphericalPlus
import Mathlib.Tactic.LinearCombination
import Mathlib.Tactic.Linarith

/-! Lemmas about the model of `SphericalPlus`. -/

set_option autoImplicit false

namespace Mdso.Gauge

open Mdso.Geom Mdso.Geom.V3

theorem mk'_ok {c i : V3} {r : ℝ} {p : SPlus} (h : mk' c r i = .ok p) :
    p.center = c ∧ p.radius = r ∧ p.k = (i - c).normalized ∧ r ≠ 0 ∧
      p.v2 = (p.k.cross p.v1).normalized := by
  unfold mk' at h
  by_cases hc : r ≠ 0 ∧ ((i - c).norm - r) / r < 1 / 10000
  · simp only [if_pos hc] at h
    cases h
    exact ⟨rfl, rfl, rfl, hc.1, rfl⟩
  · simp only [if_neg hc] at h
    cases h

theorem v1_ok {c i : V3} {r : ℝ} {p : SPlus} (h : mk' c r i = .ok p) (hk : p.k.sqNorm = 1) :
    p.v1.sqNorm = 1 ∧ p.k.dot p.v1 = 0 := by
  unfold mk' at h
  by_cases hc : r ≠ 0 ∧ ((i - c).norm - r) / r < 1 / 10000
  swap
  · simp only [if_neg hc] at h; cases h
  simp only [if_pos hc] at h
  cases h
  simp only at hk ⊢
  generalize (i - c).normalized = k at hk
  have key : ∀ w : V3, k.dot w = 0 → w ≠ 0 → w.normalized.sqNorm = 1 ∧ k.dot w.normalized = 0 := by
    intro w h1 h2
    refine ⟨sqNorm_normalized h2, ?_⟩
    rw [normalized_eq h2]
    have : k.dot ((1 / w.norm) • w) = (1 / w.norm) * k.dot w := by simp [V3.dot]; ring
    rw [this, h1, mul_zero]
  have abs0 : ∀ a b : ℝ, |a| ≤ |b| → b = 0 → a = 0 := by
    intro a b hab hb; subst hb; rw [abs_zero] at hab; exact abs_nonpos_iff.1 hab
  by_cases h0 : minI k = 0
  · rw [if_pos h0]
    apply key
    · simp [V3.dot]; ring
    · intro he
      have e1 : k.z = 0 := by have := congrArg V3.y he; simpa using this
      have e2 : k.y = 0 := by have := congrArg V3.z he; simpa using this
      have hx : k.x = 0 := by
        unfold minI at h0
        split at h0
        · split at h0 <;> cases h0
        · rename_i h1
          exact abs0 _ _ (not_lt.1 h1) e2
      simp [V3.sqNorm, e1, e2, hx] at hk
  · rw [if_neg h0]
    by_cases h1 : minI k = 1
    · rw [if_pos h1]
      apply key
      · simp [V3.dot]; ring
      · intro he
        have e1 : k.z = 0 := by have := congrArg V3.x he; simpa using this
        have e2 : k.x = 0 := by have := congrArg V3.z he; simpa using this
        have hy : k.y = 0 := by
          unfold minI at h1
          split at h1
          · rename_i h2
            exact abs0 _ _ h2.le e2
          · split at h1 <;> cases h1
        simp [V3.sqNorm, e1, e2, hy] at hk
    · rw [if_neg h1]
      apply key
      · simp [V3.dot]; ring
      · intro he
        have e1 : k.y = 0 := by have := congrArg V3.x he; simpa using this
        have e2 : k.x = 0 := by have := congrArg V3.y he; simpa using this
        have hz : k.z = 0 := by
          unfold minI at h0 h1
          split at h0
          · split at h0
            · rename_i h2 h3
              exact abs0 _ _ h3.le e1
            · rename_i h2 h3
              rw [if_pos h2, if_neg h3] at h1
              exact absurd rfl h1
          · split at h0
            · rename_i h2 h3
              exact abs0 _ _ h3.le e2
            · exact absurd rfl h0
        simp [V3.sqNorm, e1, e2, hz] at hk

/-- The two tangent directions and `k` are orthonormal. -/
theorem orts {c i : V3} {r : ℝ} {p : SPlus} (h : mk' c r i = .ok p) (hk : p.k.sqNorm = 1) :
    p.v1.sqNorm = 1 ∧ p.k.dot p.v1 = 0 ∧ p.v2 = p.k.cross p.v1 ∧ p.v2.sqNorm = 1 ∧ p.k.dot p.v2 = 0 := by
  obtain ⟨h1, h2⟩ := v1_ok h hk
  have h3 : (p.k.cross p.v1).sqNorm = 1 := by
    have : (p.k.cross p.v1).sqNorm = p.k.sqNorm * p.v1.sqNorm - p.k.dot p.v1 * p.k.dot p.v1 := by
      simp only [V3.cross, V3.sqNorm, V3.dot]; ring
    rw [this, hk, h1, h2]; ring
  have h4 : p.v2 = p.k.cross p.v1 := by
    rw [(mk'_ok h).2.2.2.2, normalized_of_unit h3]
  refine ⟨h1, h2, h4, h4 ▸ h3, ?_⟩
  rw [h4]; simp only [V3.dot, V3.cross]; ring

theorem dist_plus (p : SPlus) (vec : V3) (d : ℝ × ℝ) (hm : moved p vec d ≠ 0) (hr : 0 ≤ p.radius) :
    (plus p vec d - p.center).norm = p.radius := by
  have : plus p vec d - p.center = p.radius • (moved p vec d).normalized := by
    unfold plus; ext <;> simp
  rw [this, norm_smul hr, norm_normalized hm, mul_one]

/-- Scalar product of the moved point with a vector. -/
theorem moved_dot (p : SPlus) (vec w : V3) (d : ℝ × ℝ) :
    w.dot (moved p vec d) = w.dot (vec - p.center) + d.1 * w.dot (rot p vec p.v1)
      + d.2 * w.dot (rot p vec p.v2) := by
  unfold moved rot
  by_cases h : (vec + p.k).sqNorm < 1 / 10000
  · simp only [if_pos h]
    simp [V3.dot, degenerateR]; ring
  · simp only [if_neg h]
    simp [V3.dot]; ring

theorem foldl_map_index {α β : Type} (f : β → α → α) (l : List α) (bs : List β) (i : Nat) :
    (bs.foldl (fun cur b => cur.map (f b)) l)[i]? = l[i]?.map (fun a => bs.foldl (fun a b => f b a) a) := by
  induction bs generalizing l with
  | nil => simp only [List.foldl_nil]; cases l[i]? <;> rfl
  | cons b bs ih =>
    simp only [List.foldl_cons]
    rw [ih, List.getElem?_map]
    cases l[i]? <;> rfl

variable {Q L : Type}

theorem find_index {α : Type} {l : List α} {q : α → Bool} {a : α} (h : l.find? q = some a) :
    ∃ i : Nat, l[i]? = some a ∧ q a = true ∧ ∀ (j : Nat) b, j < i → l[j]? = some b → q b = false := by
  induction l with
  | nil => cases h
  | cons b l ih =>
    rw [List.find?_cons] at h
    cases hb : q b with
    | true =>
      rw [hb] at h
      cases h
      exact ⟨0, rfl, hb, fun j _ hj => absurd hj (Nat.not_lt_zero _)⟩
    | false =>
      rw [hb] at h
      obtain ⟨i, h1, h2, h3⟩ := ih h
      refine ⟨i + 1, by simpa using h1, h2, ?_⟩
      intro j c hj hc
      cases j with
      | zero => simp at hc; rw [← hc]; exact hb
      | succ j => exact h3 j c (by omega) (by simpa using hc)

/-- What a run that ends normally did to each keyframe. -/
theorem adjust_ok {s : Settings} {kfs out : List (Kf Q L)} {first : Nat} {steps : List (Step Q L)}
    (h : adjust s kfs first steps = .ok out) :
    ∃ f sec p, kfs.find? (fun kf => kf.id == first) = some f ∧
      kfs.find? (fun kf => kf.id != first) = some sec ∧
      mk' f.t (sec.t - f.t).norm sec.t = .ok p ∧
      ∀ i : Nat, out[i]? = kfs[i]?.map (fun kf => steps.foldl
        (fun kf st => stepKf (decl s kfs.length first sec.id p kf.id) st kf) kf) := by
  unfold adjust at h
  split at h
  · rename_i f sec hf hs
    split at h
    · cases h
    · rename_i p hp
      refine ⟨f, sec, p, hf, hs, hp, ?_⟩
      cases h
      intro i
      exact foldl_map_index (fun st kf => stepKf (decl s kfs.length first sec.id p kf.id) st kf) kfs steps i
  · cases h

theorem fold_first {s : Settings} {n : Nat} {second : Nat} {p : SPlus} (steps : List (Step Q L))
    (kf : Kf Q L) (hne : kf.id ≠ second) :
    steps.foldl (fun kf' st => stepKf (decl s n kf.id second p kf'.id) st kf') kf = kf := by
  induction steps with
  | nil => rfl
  | cons st steps ih =>
    rw [List.foldl_cons]
    have : stepKf (decl s n kf.id second p kf.id) st kf = kf := by
      have hd : decl s n kf.id second p kf.id = { t := .constant, qConst := true, lConst := true } := by
        unfold decl; simp [hne]
      rw [hd]; rfl
    rw [this]; exact ih

theorem fold_id {D : Nat → Decl} (steps : List (Step Q L)) (kf : Kf Q L) :
    (steps.foldl (fun kf st => stepKf (D kf.id) st kf) kf).id = kf.id := by
  induction steps generalizing kf with
  | nil => rfl
  | cons st steps ih => rw [List.foldl_cons, ih]; rfl

/-- The second keyframe is either left alone or moved by `Plus` only. -/
theorem step_second {s : Settings} {n first : Nat} {p : SPlus} (kf : Kf Q L) (hne : kf.id ≠ first)
    (st : Step Q L) :
    (stepKf (decl s n first kf.id p kf.id) st kf).t = kf.t ∨
      (stepKf (decl s n first kf.id p kf.id) st kf).t = plus p kf.t (st.t2 kf.id) := by
  unfold decl
  simp only [if_neg hne, if_true]
  by_cases h : s.fixedMotionOnFirstAdjustent = true ∧ n = 2 ∧ True
  · rw [if_pos h]; left; rfl
  · rw [if_neg h]; right; rfl

/-- A vector orthogonal to two orthonormal vectors and to their cross product is zero. -/
theorem eq_zero_of_orth {u k v : V3} (hk : k.sqNorm = 1) (hv : v.sqNorm = 1) (hkv : k.dot v = 0)
    (h1 : u.dot k = 0) (h2 : u.dot v = 0) (h3 : u.dot (k.cross v) = 0) : u = 0 := by
  by_contra hne
  have hpos := sqNorm_pos hne
  have hn : (k.cross v).sqNorm = 1 := by
    have : (k.cross v).sqNorm = k.sqNorm * v.sqNorm - k.dot v * k.dot v := by
      simp only [V3.cross, V3.sqNorm, V3.dot]; ring
    rw [this, hk, hv, hkv]; ring
  have hx : u.cross (k.cross v) = 0 := by
    have e : u.cross (k.cross v) = (u.dot v) • k - (u.dot k) • v := by
      ext <;> simp [V3.cross, V3.dot] <;> ring
    rw [e, h1, h2]; ext <;> simp
  have hl : u.sqNorm * (k.cross v).sqNorm
      = u.dot (k.cross v) * u.dot (k.cross v) + (u.cross (k.cross v)).sqNorm := by
    generalize k.cross v = n
    simp only [V3.cross, V3.sqNorm, V3.dot]; ring
  rw [hn, h3, hx] at hl
  have : (0 : V3).sqNorm = 0 := by simp [V3.sqNorm]
  rw [this] at hl
  linarith

/-- About the origin with unit radius, away from the antipode, the half turn takes `k` to the current
position. -/
theorem rot_dot {p : SPlus} {vec w : V3} (hk : p.k.sqNorm = 1) (hv : vec.sqNorm = 1)
    (hd : ¬ (vec + p.k).sqNorm < 1 / 10000) : vec.dot (rot p vec w) = p.k.dot w := by
  unfold rot
  simp only [if_neg hd]
  have hpos : (0 : ℝ) < (vec + p.k).sqNorm := by
    have := not_lt.1 hd; linarith
  have hax : (vec + p.k).sqNorm = 2 * (1 + vec.dot p.k) := by
    have : (vec + p.k).sqNorm = vec.sqNorm + p.k.sqNorm + 2 * vec.dot p.k := by
      simp [V3.sqNorm, V3.dot]; ring
    rw [this, hv, hk]; ring
  have e : vec.dot (-w + (2 / (vec + p.k).sqNorm * (vec + p.k).dot w) • (vec + p.k))
      = - vec.dot w + 2 / (vec + p.k).sqNorm * (vec + p.k).dot w * (vec.sqNorm + vec.dot p.k) := by
    simp [V3.sqNorm, V3.dot]; ring
  rw [e, hv, hax]
  rw [hax] at hpos
  have h2 : 1 + vec.dot p.k ≠ 0 := by linarith
  have e2 : (vec + p.k).dot w = vec.dot w + p.k.dot w := by simp [V3.dot]; ring
  rw [e2]
  field_simp
  ring

theorem rot_iso {p : SPlus} {vec : V3} (hd : ¬ (vec + p.k).sqNorm < 1 / 10000) (a b : V3) :
    (rot p vec a).dot (rot p vec b) = a.dot b := by
  unfold rot
  simp only [if_neg hd]
  have hpos : (vec + p.k).sqNorm ≠ 0 := by
    have := not_lt.1 hd; intro h; rw [h] at this; norm_num at this
  generalize vec + p.k = n at *
  have e : (-a + (2 / n.sqNorm * n.dot a) • n).dot (-b + (2 / n.sqNorm * n.dot b) • n)
      = a.dot b - 2 * (2 / n.sqNorm) * n.dot a * n.dot b
        + (2 / n.sqNorm) * (2 / n.sqNorm) * n.dot a * n.dot b * n.sqNorm := by
    simp [V3.dot, V3.sqNorm]; ring
  rw [e]
  field_simp
  ring

theorem rot_cross {p : SPlus} {vec : V3} (hd : ¬ (vec + p.k).sqNorm < 1 / 10000) (a b : V3) :
    (rot p vec a).cross (rot p vec b) = rot p vec (a.cross b) := by
  unfold rot
  simp only [if_neg hd]
  have hpos : (vec + p.k).sqNorm ≠ 0 := by
    have := not_lt.1 hd; intro h; rw [h] at this; norm_num at this
  generalize vec + p.k = n at *
  have hs : n.sqNorm = n.x * n.x + n.y * n.y + n.z * n.z := rfl
  generalize n.sqNorm = S at *
  ext <;> simp [V3.cross, V3.dot] <;> field_simp <;> rw [hs] <;> ring

theorem rot_k {p : SPlus} {vec : V3} (hk : p.k.sqNorm = 1) (hv : vec.sqNorm = 1)
    (hd : ¬ (vec + p.k).sqNorm < 1 / 10000) : rot p vec p.k = vec := by
  have h1 : (rot p vec p.k - vec).sqNorm = 0 := by
    have e : (rot p vec p.k - vec).sqNorm
        = (rot p vec p.k).dot (rot p vec p.k) - 2 * vec.dot (rot p vec p.k) + vec.sqNorm := by
      simp [V3.sqNorm, V3.dot]; ring
    rw [e, rot_iso hd, rot_dot hk hv hd, hv]
    have : p.k.dot p.k = 1 := hk
    rw [this]; ring
  by_contra hne
  have : rot p vec p.k - vec ≠ 0 := by
    intro h0
    apply hne
    ext
    · have := congrArg V3.x h0; simp at this; linarith
    · have := congrArg V3.y h0; simp at this; linarith
    · have := congrArg V3.z h0; simp at this; linarith
  have := sqNorm_pos this
  linarith

end Mdso.Gauge
