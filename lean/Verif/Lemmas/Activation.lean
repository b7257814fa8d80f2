import Verif.Model.Activation
import Verif.Props.DistanceMap
import Mathlib.Data.List.Perm.Basic
import Mathlib.Data.List.Perm.Subperm

/-!
# Lemmas about the activation of points
-/

set_option autoImplicit false

namespace Mdso.Act

/-! ## Swap and pop -/

theorem swapPop_spec {α : Type} {l : List α} {i : Nat} {a : α} (h : l[i]? = some a) :
    (a :: swapPop l i).Perm l ∧ ∀ k, k < i → (swapPop l i)[k]? = l[k]? := by
  obtain ⟨hi, ha⟩ := List.getElem?_eq_some_iff.1 h
  have hne : l ≠ [] := by rintro rfl; simp at hi
  obtain ⟨init, b, rfl⟩ : ∃ init b, l = init ++ [b] :=
    ⟨l.dropLast, l.getLast hne, (List.dropLast_append_getLast hne).symm⟩
  unfold swapPop
  rw [List.getLast?_append]
  simp only [List.getLast?_singleton, Option.some_or]
  rcases Nat.lt_or_ge i init.length with hlt | hge
  · rw [List.set_append_left _ _ hlt, List.dropLast_concat]
    rw [List.getElem_append_left hlt] at ha
    constructor
    · subst ha
      refine List.Perm.trans ?_ (List.perm_append_singleton b init).symm
      refine List.Perm.trans ?_ (List.Perm.cons b (List.Perm.refl init))
      have h1 := List.set_perm_cons_eraseIdx hlt b
      have h2 := List.getElem_cons_eraseIdx_perm hlt
      exact ((h1.cons _).trans (List.Perm.swap _ _ _)).trans (h2.cons b)
    · intro k hk
      rw [List.getElem?_set_ne (by omega), List.getElem?_append_left (by omega)]
  · have he : i = init.length := by simp at hi; omega
    subst he
    have hb : a = b := by
      rw [List.getElem?_append_right (le_refl _)] at h
      simp at h; exact h.symm
    subst hb
    rw [List.set_append_right _ _ (le_refl _)]
    simp only [Nat.sub_self, List.set_cons_zero, List.dropLast_concat]
    constructor
    · exact (List.perm_append_singleton a init).symm
    · intro k hk
      rw [List.getElem?_append_left hk]

/-! ## One keyframe -/

/-- The rounds that concern one keyframe. -/
noncomputable def activateKf : List Nat → KeyFrame → Except Fault KeyFrame
  | [], kf => .ok kf
  | ind :: rest, kf =>
    match activateOne kf ind with
    | .error e => .error e
    | .ok kf' => activateKf rest kf'

theorem activateKf_ok (inds : List Nat) (hs : inds.Pairwise fun a b => b < a) (kf : KeyFrame)
    (hin : ∀ i ∈ inds, i < kf.immature.length) :
    ∃ kf' act, activateKf inds kf = .ok kf' ∧ inds.map (fun i => kf.immature[i]?) = act.map some ∧
      (act ++ kf'.immature).Perm kf.immature ∧
      kf'.optimized = kf.optimized ++ act.map Optimized.ofImmature := by
  induction inds generalizing kf with
  | nil => exact ⟨kf, [], rfl, rfl, by simp, by simp⟩
  | cons i inds ih =>
    obtain ⟨hs1, hs2⟩ := List.pairwise_cons.1 hs
    have hi := hin i (List.mem_cons_self ..)
    obtain ⟨ip, hip⟩ : ∃ ip, kf.immature[i]? = some ip := ⟨_, List.getElem?_eq_getElem hi⟩
    obtain ⟨h1, h2⟩ := swapPop_spec hip
    have hlen : (swapPop kf.immature i).length + 1 = kf.immature.length := by
      have := h1.length_eq; simpa using this
    obtain ⟨kf', act, a1, a2, a3, a4⟩ := ih hs2
      ⟨swapPop kf.immature i, kf.optimized ++ [Optimized.ofImmature ip]⟩ (by
        intro j hj
        have := hs1 j hj
        simp only; omega)
    refine ⟨kf', ip :: act, ?_, ?_, ?_, ?_⟩
    · simp only [activateKf, activateOne, hip]; exact a1
    · simp only [List.map_cons, hip, List.cons.injEq, true_and]
      rw [← a2]
      apply List.map_congr_left
      intro j hj
      exact (h2 j (hs1 j hj)).symm
    · exact (a3.cons ip).trans h1
    · rw [a4]; simp

/-! ## All keyframes -/

/-- Indices that concern keyframe `k`. -/
def indsOf (k : Nat) (l : List (Nat × Nat)) : List Nat := (l.filter fun q => q.1 = k).map Prod.snd

theorem activateAll_ok (l : List (Nat × Nat)) (kfs : List KeyFrame) (hk : ∀ q ∈ l, q.1 < kfs.length)
    (hkf : ∀ (k : Nat) kf, kfs[k]? = some kf → ∃ kf', activateKf (indsOf k l) kf = .ok kf') :
    ∃ kfs', activateAll l kfs = .ok kfs' ∧ kfs'.length = kfs.length ∧
      ∀ (k : Nat) kf, kfs[k]? = some kf → ∃ kf', kfs'[k]? = some kf' ∧ activateKf (indsOf k l) kf = .ok kf' := by
  induction l generalizing kfs with
  | nil => exact ⟨kfs, rfl, rfl, fun k kf h => ⟨kf, h, rfl⟩⟩
  | cons q l ih =>
    obtain ⟨k0, ind⟩ := q
    have hk0 := hk _ (List.mem_cons_self ..)
    simp only at hk0
    obtain ⟨kf0, hkf0⟩ : ∃ kf0, kfs[k0]? = some kf0 := ⟨_, List.getElem?_eq_getElem hk0⟩
    have e0 : indsOf k0 ((k0, ind) :: l) = ind :: indsOf k0 l := by simp [indsOf]
    have ene : ∀ k, k ≠ k0 → indsOf k ((k0, ind) :: l) = indsOf k l := by
      intro k hne
      simp [indsOf, Ne.symm hne]
    obtain ⟨kf0', h0⟩ := hkf k0 kf0 hkf0
    rw [e0] at h0
    simp only [activateKf] at h0
    cases h1 : activateOne kf0 ind with
    | error e => rw [h1] at h0; cases h0
    | ok kf1 =>
      rw [h1] at h0
      simp only at h0
      obtain ⟨kfs', a1, a2, a3⟩ := ih (kfs.set k0 kf1)
        (by intro q hq; simpa using hk q (List.mem_cons_of_mem _ hq))
        (by
          intro k kf hget
          by_cases hkk : k = k0
          · subst hkk
            rw [List.getElem?_set_self hk0] at hget
            cases hget
            exact ⟨_, h0⟩
          · rw [List.getElem?_set_ne (Ne.symm hkk)] at hget
            obtain ⟨kf', h⟩ := hkf k kf hget
            rw [ene k hkk] at h
            exact ⟨kf', h⟩)
      refine ⟨kfs', ?_, by simpa using a2, ?_⟩
      · simp only [activateAll, hkf0, h1]; exact a1
      · intro k kf hget
        by_cases hkk : k = k0
        · subst hkk
          rw [hkf0] at hget; cases hget
          obtain ⟨kf', b1, b2⟩ := a3 k kf1 (List.getElem?_set_self hk0)
          refine ⟨kf', b1, ?_⟩
          rw [e0]; simp only [activateKf, h1]; exact b2
        · obtain ⟨kf', b1, b2⟩ := a3 k kf (by rw [List.getElem?_set_ne (Ne.symm hkk)]; exact hget)
          exact ⟨kf', b1, by rw [ene k hkk]; exact b2⟩

/-! ## Candidates -/

theorem readyOf_mem {e : Env} {k ind : Nat} {ips : List Immature} {c : (ℝ × ℝ) × (Nat × Nat)}
    (h : c ∈ readyOf e k ind ips) :
    c.2.1 = k ∧ ind ≤ c.2.2 ∧ ∃ ip, ips[c.2.2 - ind]? = some ip ∧ ip.isReady e.optimizedStddev := by
  induction ips generalizing ind with
  | nil => cases h
  | cons ip ips ih =>
    unfold readyOf at h
    have rec_ : c ∈ readyOf e k (ind + 1) ips → c.2.1 = k ∧ ind ≤ c.2.2 ∧
        ∃ ip', (ip :: ips)[c.2.2 - ind]? = some ip' ∧ ip'.isReady e.optimizedStddev := by
      intro h
      obtain ⟨h1, h2, ip', h3, h4⟩ := ih h
      refine ⟨h1, by omega, ip', ?_, h4⟩
      have : c.2.2 - ind = (c.2.2 - (ind + 1)) + 1 := by omega
      rw [this, List.getElem?_cons_succ]; exact h3
    by_cases hr : ip.isReady e.optimizedStddev
    · rw [if_pos hr] at h
      rcases List.mem_cons.1 h with rfl | h
      · exact ⟨rfl, le_refl _, ip, by simp, hr⟩
      · exact rec_ h
    · rw [if_neg hr] at h
      exact rec_ h

theorem candidates_mem {e : Env} {k : Nat} {kfs : List KeyFrame} {c : (ℝ × ℝ) × (Nat × Nat)}
    (h : c ∈ candidates e k kfs) :
    k ≤ c.2.1 ∧ ∃ kf ip, kfs[c.2.1 - k]? = some kf ∧ kf.immature[c.2.2]? = some ip ∧
      ip.isReady e.optimizedStddev := by
  induction kfs generalizing k with
  | nil => cases h
  | cons kf kfs ih =>
    unfold candidates at h
    rcases List.mem_append.1 h with h | h
    · obtain ⟨h1, h2, ip, h3, h4⟩ := readyOf_mem h
      exact ⟨by omega, kf, ip, by rw [h1]; simp, by simpa using h3, h4⟩
    · obtain ⟨h1, kf', ip, h3, h4, h5⟩ := ih h
      refine ⟨by omega, kf', ip, ?_, h4, h5⟩
      have : c.2.1 - k = (c.2.1 - (k + 1)) + 1 := by omega
      rw [this, List.getElem?_cons_succ]; exact h3

theorem readyOf_nodup (e : Env) (k ind : Nat) (ips : List Immature) :
    ((readyOf e k ind ips).map Prod.snd).Nodup := by
  induction ips generalizing ind with
  | nil => simp [readyOf]
  | cons ip ips ih =>
    unfold readyOf
    split
    · rw [List.map_cons, List.nodup_cons]
      refine ⟨?_, ih _⟩
      intro h
      obtain ⟨c, hc, hc'⟩ := List.mem_map.1 h
      have := (readyOf_mem hc).2.1
      rw [hc'] at this
      simp only at this
      omega
    · exact ih _

theorem candidates_nodup (e : Env) (k : Nat) (kfs : List KeyFrame) :
    ((candidates e k kfs).map Prod.snd).Nodup := by
  induction kfs generalizing k with
  | nil => simp [candidates]
  | cons kf kfs ih =>
    unfold candidates
    rw [List.map_append, List.nodup_append]
    refine ⟨readyOf_nodup _ _ _ _, ih _, ?_⟩
    intro a ha b hb hab
    obtain ⟨c, hc, rfl⟩ := List.mem_map.1 ha
    obtain ⟨d, hd, rfl⟩ := List.mem_map.1 hb
    have h1 := (readyOf_mem hc).1
    have h2 := (candidates_mem hd).1
    rw [hab] at h1
    omega

/-! ## From chosen indices to positions -/

theorem mapM_pos {α : Type} (L : List α) (l : List Nat) (h : ∀ i ∈ l, i < L.length) :
    ∃ out, l.mapM (fun i => L[i]?) = some out ∧ l.map (fun i => L[i]?) = out.map some := by
  induction l with
  | nil => exact ⟨[], rfl, rfl⟩
  | cons i l ih =>
    obtain ⟨out, h1, h2⟩ := ih (fun j hj => h j (List.mem_cons_of_mem _ hj))
    have hi := h i (List.mem_cons_self ..)
    refine ⟨L[i] :: out, ?_, ?_⟩
    · rw [List.mapM_cons, List.getElem?_eq_getElem hi, h1]; rfl
    · simp only [List.map_cons, h2, List.getElem?_eq_getElem hi]

theorem choose_facts {nth : List (Nat × Int) → Nat → List (Nat × Int)} (hn : DistMap.IsNthElement nth)
    {m : DistMap.Map} {ps : List (ℝ × ℝ)} {needed : Int} {chosen : List Nat}
    (h : DistMap.choose nth m ps needed = .ok chosen) :
    0 ≤ needed ∧ chosen.Nodup ∧ (∀ i ∈ chosen, i < ps.length) ∧ (chosen.length : Int) ≤ needed := by
  have h0 : 0 ≤ needed := by
    by_contra hlt
    rw [DistMap.C22_negative_ub nth m ps needed (by omega)] at h
    cases h
  have hedge : ∀ p ∈ ps, ¬ DistMap.OnEdge m.w m.h (DistMap.cellOf m.pyr p) := by
    intro p hp he
    rw [DistMap.C22_edge_ub nth m ps p hp he needed] at h
    cases h
  obtain ⟨c, h1, h2, h3, h4, -⟩ := DistMap.C22_choose_partial nth hn m ps needed h0 hedge
  rw [h] at h1; cases h1
  refine ⟨h0, h2, ?_, h3⟩
  intro i hi
  obtain ⟨p, hp, -⟩ := h4 i hi
  exact (List.getElem?_eq_some_iff.1 hp).1

end Mdso.Act
