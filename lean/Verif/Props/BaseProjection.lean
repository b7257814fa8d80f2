import Verif.Spec.BaseProjection

/-!
# Properties of the projection onto the base keyframe
-/

set_option autoImplicit false

namespace Mdso.Base

open Mdso.Geom Mdso.Base.Spec

/-! ### The entries, as one list -/

/-- One entry of the four vectors. -/
structure Entry where
  pos : V2
  depth : ℝ
  ptr : Nat × Nat
  kf : Nat

/-- Vectors with the entries `es` appended. -/
def Out.add (o : Out) (es : List Entry) : Out :=
  ⟨o.points ++ es.map (·.pos), o.depths ++ es.map (·.depth), o.ptrs ++ es.map (·.ptr), o.kfs ++ es.map (·.kf)⟩

theorem add_nil (o : Out) : o.add [] = o := by simp [Out.add]

theorem push_add (o : Out) (e : Entry) (es : List Entry) :
    (o.push e.pos e.depth e.ptr e.kf).add es = o.add (e :: es) := by
  simp [Out.add, Out.push]

theorem add_add (o : Out) (es es' : List Entry) : (o.add es).add es' = o.add (es ++ es') := by
  simp [Out.add]

/-- Pairwise increasing pointers. -/
def Increasing (es : List Entry) : Prop :=
  (es.map (·.ptr)).Pairwise fun a b => a.1 < b.1 ∨ (a.1 = b.1 ∧ a.2 < b.2)

/-! ### One keyframe -/

theorem pushBase_spec (k i : Nat) (ps : List PView) (o : Out) :
    (∀ pt ∈ ps, pt.active = true → pt.depth ≠ none) ∧ (∃ es, pushBase k i ps o = .ok (o.add es) ∧
      (∀ e ∈ es, e.kf = k ∧ e.ptr.1 = k ∧ i ≤ e.ptr.2 ∧ ∃ pt, ps[e.ptr.2 - i]? = some pt ∧ pt.active = true ∧
        pt.depth = some e.depth ∧ e.pos = pt.p) ∧
      (∀ j pt, ps[j]? = some pt → pt.active = true → ∃ e ∈ es, e.ptr = (k, i + j)) ∧ Increasing es) ∨
    (∃ pt ∈ ps, pt.active = true ∧ pt.depth = none) ∧ pushBase k i ps o = .error .ub := by
  induction ps generalizing i o with
  | nil =>
    refine Or.inl ⟨fun _ h => (by cases h), [], by rw [add_nil]; rfl, fun _ h => (by cases h), ?_, List.Pairwise.nil⟩
    intro j pt h
    cases h
  | cons p ps ih =>
    rw [pushBase]
    by_cases ha : p.active = true
    · rw [if_pos ha]
      cases hd : p.depth with
      | none => exact Or.inr ⟨⟨p, List.mem_cons_self .., ha, hd⟩, rfl⟩
      | some d =>
        simp only
        rcases ih (i + 1) (o.push p.p d (k, i) k) with ⟨h1, es, h2, h3, h4, h5⟩ | ⟨⟨pt, hm, hpt⟩, h2⟩
        · refine Or.inl ⟨?_, ⟨p.p, d, (k, i), k⟩ :: es, ?_, ?_, ?_, ?_⟩
          · intro pt hm hp
            rcases List.mem_cons.1 hm with rfl | hm
            · rw [hd]; exact Option.some_ne_none d
            · exact h1 pt hm hp
          · rw [h2, ← push_add]
          · intro e he
            rcases List.mem_cons.1 he with rfl | he
            · exact ⟨rfl, rfl, le_refl _, p, by simp, ha, hd, rfl⟩
            · obtain ⟨a, b, c, pt, e1, e2⟩ := h3 e he
              refine ⟨a, b, by omega, pt, ?_, e2⟩
              rw [show e.ptr.2 - i = (e.ptr.2 - (i + 1)) + 1 by omega]
              exact e1
          · intro j pt hj hact
            cases j with
            | zero => exact ⟨_, List.mem_cons_self .., rfl⟩
            | succ j =>
              obtain ⟨e, he, hp⟩ := h4 j pt hj hact
              exact ⟨e, List.mem_cons_of_mem _ he, by rw [hp]; congr 1; omega⟩
          · unfold Increasing
            rw [List.map_cons, List.pairwise_cons]
            refine ⟨?_, h5⟩
            intro q hq
            obtain ⟨e, he, rfl⟩ := List.mem_map.1 hq
            obtain ⟨-, b, c, -⟩ := h3 e he
            exact Or.inr ⟨b.symm, c⟩
        · exact Or.inr ⟨⟨pt, List.mem_cons_of_mem _ hm, hpt⟩, h2⟩
    · rw [if_neg ha]
      rcases ih (i + 1) o with ⟨h1, es, h2, h3, h4, h5⟩ | ⟨⟨pt, hm, hpt⟩, h2⟩
      · refine Or.inl ⟨?_, es, h2, ?_, ?_, h5⟩
        · intro pt hm hp
          rcases List.mem_cons.1 hm with rfl | hm
          · exact absurd hp ha
          · exact h1 pt hm hp
        · intro e he
          obtain ⟨a, b, c, pt, e1, e2⟩ := h3 e he
          refine ⟨a, b, by omega, pt, ?_, e2⟩
          rw [show e.ptr.2 - i = (e.ptr.2 - (i + 1)) + 1 by omega]
          exact e1
        · intro j pt hj hact
          cases j with
          | zero =>
            obtain rfl := Option.some.inj hj
            exact absurd hact ha
          | succ j =>
            obtain ⟨e, he, hp⟩ := h4 j pt hj hact
            exact ⟨e, he, by rw [hp]; congr 1; omega⟩
      · exact Or.inr ⟨⟨pt, List.mem_cons_of_mem _ hm, hpt⟩, h2⟩

theorem pushOther_spec (c : Cam.Cam) (m : Motion3) (k i : Nat) (ps : List PView) (o : Out) :
    (∀ pt ∈ ps, pt.depth ≠ none) ∧ (∃ es, pushOther c m k i ps o = .ok (o.add es) ∧
      (∀ e ∈ es, e.kf = k ∧ e.ptr.1 = k ∧ i ≤ e.ptr.2 ∧ ∃ pt d, ps[e.ptr.2 - i]? = some pt ∧ pt.depth = some d ∧
        e.pos = Cam.map c (m.act (d • (Cam.unmap c pt.p).normalized)) ∧
        e.depth = (m.act (d • (Cam.unmap c pt.p).normalized)).norm ∧ Cam.isOnImage c e.pos 0) ∧
      (∀ j pt d, ps[j]? = some pt → pt.depth = some d →
        Cam.isOnImage c (Cam.map c (m.act (d • (Cam.unmap c pt.p).normalized))) 0 → ∃ e ∈ es, e.ptr = (k, i + j)) ∧
      Increasing es) ∨
    (∃ pt ∈ ps, pt.depth = none) ∧ pushOther c m k i ps o = .error .ub := by
  induction ps generalizing i o with
  | nil =>
    refine Or.inl ⟨fun _ h => (by cases h), [], by rw [add_nil]; rfl, fun _ h => (by cases h), ?_, List.Pairwise.nil⟩
    intro j pt d h
    cases h
  | cons p ps ih =>
    rw [pushOther]
    cases hd : p.depth with
    | none => exact Or.inr ⟨⟨p, List.mem_cons_self .., hd⟩, rfl⟩
    | some d =>
      simp only
      by_cases hon : Cam.isOnImage c (Cam.map c (m.act (d • (Cam.unmap c p.p).normalized))) 0
      · rw [if_pos hon]
        rcases ih (i + 1) (o.push (Cam.map c (m.act (d • (Cam.unmap c p.p).normalized)))
          (m.act (d • (Cam.unmap c p.p).normalized)).norm (k, i) k) with ⟨h1, es, h2, h3, h4, h5⟩ | ⟨⟨pt, hm, hpt⟩, h2⟩
        · refine Or.inl ⟨?_, ⟨Cam.map c (m.act (d • (Cam.unmap c p.p).normalized)),
              (m.act (d • (Cam.unmap c p.p).normalized)).norm, (k, i), k⟩ :: es, ?_, ?_, ?_, ?_⟩
          rotate_left
          · rw [h2]
            exact congrArg _ (push_add o ⟨Cam.map c (m.act (d • (Cam.unmap c p.p).normalized)),
              (m.act (d • (Cam.unmap c p.p).normalized)).norm, (k, i), k⟩ es)
          · intro e he
            rcases List.mem_cons.1 he with rfl | he
            · exact ⟨rfl, rfl, le_refl _, p, d, by simp, hd, rfl, rfl, hon⟩
            · obtain ⟨a, b, c', pt, d', e1, e2⟩ := h3 e he
              refine ⟨a, b, by omega, pt, d', ?_, e2⟩
              rw [show e.ptr.2 - i = (e.ptr.2 - (i + 1)) + 1 by omega]
              exact e1
          · intro j pt d' hj hact himg
            cases j with
            | zero => exact ⟨_, List.mem_cons_self .., rfl⟩
            | succ j =>
              obtain ⟨e, he, hp⟩ := h4 j pt d' hj hact himg
              exact ⟨e, List.mem_cons_of_mem _ he, by rw [hp]; congr 1; omega⟩
          · unfold Increasing
            rw [List.map_cons, List.pairwise_cons]
            refine ⟨?_, h5⟩
            intro q hq
            obtain ⟨e, he, rfl⟩ := List.mem_map.1 hq
            obtain ⟨-, b, c, -⟩ := h3 e he
            exact Or.inr ⟨b.symm, c⟩
          · intro pt hm
            rcases List.mem_cons.1 hm with rfl | hm
            · rw [hd]; exact Option.some_ne_none d
            · exact h1 pt hm
        · exact Or.inr ⟨⟨pt, List.mem_cons_of_mem _ hm, hpt⟩, h2⟩
      · rw [if_neg hon]
        rcases ih (i + 1) o with ⟨h1, es, h2, h3, h4, h5⟩ | ⟨⟨pt, hm, hpt⟩, h2⟩
        · refine Or.inl ⟨?_, es, h2, ?_, ?_, h5⟩
          · intro pt hm
            rcases List.mem_cons.1 hm with rfl | hm
            · rw [hd]; exact Option.some_ne_none d
            · exact h1 pt hm
          · intro e he
            obtain ⟨a, b, c', pt, d', e1, e2⟩ := h3 e he
            refine ⟨a, b, by omega, pt, d', ?_, e2⟩
            rw [show e.ptr.2 - i = (e.ptr.2 - (i + 1)) + 1 by omega]
            exact e1
          · intro j pt d' hj hd' himg
            cases j with
            | zero =>
              obtain rfl := Option.some.inj hj
              rw [hd] at hd'
              obtain rfl := Option.some.inj hd'
              exact absurd himg hon
            | succ j =>
              obtain ⟨e, he, hp⟩ := h4 j pt d' hj hd' himg
              exact ⟨e, he, by rw [hp]; congr 1; omega⟩
        · exact Or.inr ⟨⟨pt, List.mem_cons_of_mem _ hm, hpt⟩, h2⟩

/-! ### All keyframes -/

/-- The entry reports the point `i` of the keyframe `kf` at position `k`. -/
def Good (c : Cam.Cam) (base : Nat) (bw : Motion3) (k : Nat) (kf : KfView) (i : Nat) (pos : V2) (depth : ℝ) : Prop :=
  ∃ pt, kf.points[i]? = some pt ∧
    ((k = base ∧ pt.active = true ∧ pt.depth = some depth ∧ pos = pt.p) ∨
     (k ≠ base ∧ ∃ d, pt.depth = some d ∧
        pos = Cam.map c ((compose (inverse bw) kf.thisToWorld).act (d • (Cam.unmap c pt.p).normalized)) ∧
        depth = ((compose (inverse bw) kf.thisToWorld).act (d • (Cam.unmap c pt.p).normalized)).norm ∧
        Cam.isOnImage c pos 0))

/-- A point of the keyframe at position `k` whose depth is read although it is not known. -/
def Bad (base k : Nat) (kf : KfView) : Prop :=
  ∃ pt ∈ kf.points, (k ≠ base ∨ pt.active = true) ∧ pt.depth = none

theorem frame_spec (c : Cam.Cam) (base : Nat) (bw : Motion3) (k : Nat) (kf : KfView) (o : Out) :
    ¬ Bad base k kf ∧ (∃ es, pushFrame c base bw k kf o = .ok (o.add es) ∧
      (∀ e ∈ es, e.kf = k ∧ e.ptr.1 = k ∧ Good c base bw k kf e.ptr.2 e.pos e.depth) ∧
      (∀ i pos depth, Good c base bw k kf i pos depth → ∃ e ∈ es, e.ptr = (k, i)) ∧ Increasing es) ∨
    Bad base k kf ∧ pushFrame c base bw k kf o = .error .ub := by
  unfold pushFrame
  by_cases hk : k = base
  · rw [if_pos hk]
    rcases pushBase_spec k 0 kf.points o with ⟨h1, es, h2, h3, h4, h5⟩ | ⟨⟨pt, hm, ha, hd⟩, h2⟩
    · refine Or.inl ⟨?_, es, h2, ?_, ?_, h5⟩
      · rintro ⟨pt, hm, ha | ha, hd⟩
        · exact ha hk
        · exact h1 pt hm ha hd
      · intro e he
        obtain ⟨a, b, -, pt, e1, e2, e3, e4⟩ := h3 e he
        exact ⟨a, b, pt, e1, Or.inl ⟨hk, e2, e3, e4⟩⟩
      · rintro i pos depth ⟨pt, hpt, ⟨-, ha, -⟩ | ⟨hne, -⟩⟩
        · obtain ⟨e, he, hp⟩ := h4 i pt hpt ha
          exact ⟨e, he, by rw [hp, Nat.zero_add]⟩
        · exact absurd hk hne
    · exact Or.inr ⟨⟨pt, hm, Or.inr ha, hd⟩, h2⟩
  · rw [if_neg hk]
    rcases pushOther_spec c (compose (inverse bw) kf.thisToWorld) k 0 kf.points o with
      ⟨h1, es, h2, h3, h4, h5⟩ | ⟨⟨pt, hm, hd⟩, h2⟩
    · refine Or.inl ⟨?_, es, h2, ?_, ?_, h5⟩
      · rintro ⟨pt, hm, -, hd⟩
        exact h1 pt hm hd
      · intro e he
        obtain ⟨a, b, -, pt, d, e1, e2, e3, e4, e5⟩ := h3 e he
        exact ⟨a, b, pt, e1, Or.inr ⟨hk, d, e2, e3, e4, e5⟩⟩
      · rintro i pos depth ⟨pt, hpt, ⟨he, -⟩ | ⟨-, d, hd, hpos, -, himg⟩⟩
        · exact absurd he hk
        · obtain ⟨e, he, hp⟩ := h4 i pt d hpt hd (hpos ▸ himg)
          exact ⟨e, he, by rw [hp, Nat.zero_add]⟩
    · exact Or.inr ⟨⟨pt, hm, Or.inl hk, hd⟩, h2⟩

theorem pushAll_spec (c : Cam.Cam) (base : Nat) (bw : Motion3) (k : Nat) (kfs : List KfView) (o : Out) :
    (∀ j kf, kfs[j]? = some kf → ¬ Bad base (k + j) kf) ∧ (∃ es, pushAll c base bw k kfs o = .ok (o.add es) ∧
      (∀ e ∈ es, e.kf = e.ptr.1 ∧ k ≤ e.ptr.1 ∧ ∃ kf, kfs[e.ptr.1 - k]? = some kf ∧
        Good c base bw e.ptr.1 kf e.ptr.2 e.pos e.depth) ∧
      (∀ j kf i pos depth, kfs[j]? = some kf → Good c base bw (k + j) kf i pos depth → ∃ e ∈ es, e.ptr = (k + j, i)) ∧
      Increasing es) ∨
    (∃ j kf, kfs[j]? = some kf ∧ Bad base (k + j) kf) ∧ pushAll c base bw k kfs o = .error .ub := by
  induction kfs generalizing k o with
  | nil =>
    refine Or.inl ⟨fun j kf h => (by cases h), [], by rw [add_nil]; rfl, fun e h => (by cases h), ?_, List.Pairwise.nil⟩
    intro j kf i pos depth h
    cases h
  | cons kf kfs ih =>
    rw [pushAll]
    rcases frame_spec c base bw k kf o with ⟨h1, es, h2, h3, h4, h5⟩ | ⟨hb, h2⟩
    · rw [h2]
      simp only [bind, Except.bind]
      rcases ih (k + 1) (o.add es) with ⟨g1, es', g2, g3, g4, g5⟩ | ⟨⟨j, kf', hj, hb⟩, g2⟩
      · refine Or.inl ⟨?_, es ++ es', ?_, ?_, ?_, ?_⟩
        · intro j kf' hj
          cases j with
          | zero =>
            obtain rfl := Option.some.inj hj
            exact h1
          | succ j =>
            have := g1 j kf' hj
            rwa [show k + 1 + j = k + (j + 1) by omega] at this
        · rw [g2, add_add]
        · intro e he
          rcases List.mem_append.1 he with he | he
          · obtain ⟨a, b, g⟩ := h3 e he
            refine ⟨a.trans b.symm, b.ge, kf, by rw [b]; simp, by rw [b]; exact g⟩
          · obtain ⟨a, b, kf', hkf, g⟩ := g3 e he
            refine ⟨a, by omega, kf', ?_, g⟩
            rw [show e.ptr.1 - k = (e.ptr.1 - (k + 1)) + 1 by omega]
            exact hkf
        · intro j kf' i pos depth hj hg
          cases j with
          | zero =>
            obtain rfl := Option.some.inj hj
            obtain ⟨e, he, hp⟩ := h4 i pos depth hg
            exact ⟨e, List.mem_append_left _ he, hp⟩
          | succ j =>
            rw [show k + (j + 1) = k + 1 + j by omega] at hg
            obtain ⟨e, he, hp⟩ := g4 j kf' i pos depth hj hg
            exact ⟨e, List.mem_append_right _ he, by rw [hp]; congr 1; omega⟩
        · unfold Increasing
          rw [List.map_append, List.pairwise_append]
          refine ⟨h5, g5, ?_⟩
          intro a ha b hb
          obtain ⟨x, hx, rfl⟩ := List.mem_map.1 ha
          obtain ⟨y, hy, rfl⟩ := List.mem_map.1 hb
          have := (h3 x hx).2.1
          have := (g3 y hy).2.1
          left
          omega
      · refine Or.inr ⟨⟨j + 1, kf', hj, ?_⟩, g2⟩
        rwa [show k + (j + 1) = k + 1 + j by omega]
    · refine Or.inr ⟨⟨0, kf, rfl, hb⟩, ?_⟩
      rw [h2]
      rfl

/-! ### Motions -/

theorem act_compose (m n : Motion3) (v : V3) : (compose m n).act v = m.act (n.act v) := by
  unfold compose Motion3.act M3.mulVec M3.mul
  ext <;> simp [V3.dot] <;> ring

theorem act_inverse {m : Motion3} (h : Orthogonal m.rot) (v : V3) :
    m.act ((inverse m).act v) = v ∧ (inverse m).act (m.act v) = v := by
  have hlin : ∀ (r : M3) (a b : V3), r.mulVec (a + b) = r.mulVec a + r.mulVec b := by
    intro r a b
    unfold M3.mulVec
    ext <;> simp [V3.dot] <;> ring
  have hneg : ∀ (r : M3) (a : V3), r.mulVec (-a) = -r.mulVec a := by
    intro r a
    unfold M3.mulVec
    ext <;> simp [V3.dot] <;> ring
  constructor
  · show m.rot.mulVec (m.rot.transpose.mulVec v + -(m.rot.transpose.mulVec m.t)) + m.t = v
    rw [hlin, hneg, (h v).2, (h m.t).2]
    ext <;> simp
  · show m.rot.transpose.mulVec (m.rot.mulVec v + m.t) + -(m.rot.transpose.mulVec m.t) = v
    rw [hlin, (h v).1]
    ext <;> simp

/-- The motion computed takes a point to where the base keyframe sees it. -/
theorem seen_iff {c : Cam.Cam} {baseKf kf : KfView} (h : Orthogonal baseKf.thisToWorld.rot) {p : V2} {d : ℝ} {q : V3} :
    SeenAs c baseKf kf p d q ↔
      q = (compose (inverse baseKf.thisToWorld) kf.thisToWorld).act (d • (Cam.unmap c p).normalized) := by
  unfold SeenAs
  rw [act_compose]
  constructor
  · intro hq
    rw [← hq, (act_inverse h q).2]
  · rintro rfl
    rw [(act_inverse h _).1]

theorem reported_iff {c : Cam.Cam} {kfs : List KfView} {base : Nat} {baseKf : KfView} (hb : kfs[base]? = some baseKf)
    (h : Orthogonal baseKf.thisToWorld.rot) {k i : Nat} {pos : V2} {depth : ℝ} :
    Reported c kfs base k i pos depth ↔
      ∃ kf, kfs[k]? = some kf ∧ Good c base baseKf.thisToWorld k kf i pos depth := by
  constructor
  · rintro ⟨kf, pt, ⟨hk, hi⟩, h1 | ⟨hne, bk, d, q, hbk, hd, hq, hpos, hdep, himg⟩⟩
    · exact ⟨kf, hk, pt, hi, Or.inl h1⟩
    · rw [hb] at hbk
      obtain rfl := Option.some.inj hbk
      rw [seen_iff h] at hq
      subst hq
      exact ⟨kf, hk, pt, hi, Or.inr ⟨hne, d, hd, hpos, hdep, himg⟩⟩
  · rintro ⟨kf, hk, pt, hi, h1 | ⟨hne, d, hd, hpos, hdep, himg⟩⟩
    · exact ⟨kf, pt, ⟨hk, hi⟩, Or.inl h1⟩
    · exact ⟨kf, pt, ⟨hk, hi⟩, Or.inr ⟨hne, baseKf, d, _, hb, hd, (seen_iff h).2 rfl, hpos, hdep, himg⟩⟩

/-! ### The property -/

theorem baseIndex_eq {last : Bool} {n b : Nat} : baseIndex last n = .ok b ↔ IsBase last n b := by
  unfold baseIndex IsBase
  cases last
  · simp only [Bool.false_eq_true, if_false]
    by_cases h : n < 2
    · rw [if_pos h]
      exact ⟨fun h => (by cases h), fun h => by omega⟩
    · rw [if_neg h]
      exact ⟨fun h' => by have := Except.ok.inj h'; omega, fun h' => by rw [← h']; rfl⟩
  · simp only [if_true]
    by_cases h : n < 1
    · rw [if_pos h]
      exact ⟨fun h => (by cases h), fun h => by omega⟩
    · rw [if_neg h]
      exact ⟨fun h' => by have := Except.ok.inj h'; omega, fun h' => by rw [← h']; rfl⟩

theorem project_eq (c : Cam.Cam) {last : Bool} {kfs : List KfView} {base : Nat} (hb : IsBase last kfs.length base) :
    ∃ baseKf, kfs[base]? = some baseKf ∧
      projectOntoBaseKf c last kfs = pushAll c base baseKf.thisToWorld 0 kfs ⟨[], [], [], []⟩ := by
  have hlt : base < kfs.length := by
    unfold IsBase at hb
    split at hb <;> omega
  refine ⟨kfs[base], List.getElem?_eq_getElem hlt, ?_⟩
  unfold projectOntoBaseKf
  rw [baseIndex_eq.2 hb]
  simp only [bind, Except.bind]
  rw [at'_lt hlt]

/-- C91, as far as it holds: the vectors written are parallel. The entry at each place is a point of a keyframe, with the
position and the depth it has to be reported with. Every point to be reported is there exactly once, and they are ordered by
keyframe and then by position in the keyframe. Missing: that the points of other keyframes are active. -/
theorem C91_partial {c : Cam.Cam} {last : Bool} {kfs : List KfView} {base : Nat} (hb : IsBase last kfs.length base)
    (ho : ∀ kf ∈ kfs, Orthogonal kf.thisToWorld.rot) {out : Out} (h : projectOntoBaseKf c last kfs = .ok out) :
    out.depths.length = out.points.length ∧ out.ptrs.length = out.points.length ∧ out.kfs.length = out.points.length ∧
    (∀ (j : Nat) (pos : V2), out.points[j]? = some pos → ∃ depth k i, out.depths[j]? = some depth ∧
      out.ptrs[j]? = some (k, i) ∧ out.kfs[j]? = some k ∧ Reported c kfs base k i pos depth) ∧
    (∀ k i pos depth, Reported c kfs base k i pos depth → (k, i) ∈ out.ptrs) ∧
    out.ptrs.Pairwise fun a b => a.1 < b.1 ∨ (a.1 = b.1 ∧ a.2 < b.2) := by
  obtain ⟨baseKf, hbk, he⟩ := project_eq c hb
  have hort := ho baseKf (List.mem_of_getElem? hbk)
  rw [he] at h
  rcases pushAll_spec c base baseKf.thisToWorld 0 kfs ⟨[], [], [], []⟩ with ⟨-, es, h2, h3, h4, h5⟩ | ⟨-, h2⟩
  · rw [h2] at h
    obtain rfl := Except.ok.inj h
    simp only [Out.add, List.nil_append]
    refine ⟨by simp, by simp, by simp, ?_, ?_, h5⟩
    · intro j pos hj
      rw [List.getElem?_map] at hj
      obtain ⟨e, hej, rfl⟩ := Option.map_eq_some_iff.1 hj
      obtain ⟨a, -, kf, hk, hg⟩ := h3 e (List.mem_of_getElem? hej)
      refine ⟨e.depth, e.ptr.1, e.ptr.2, by rw [List.getElem?_map, hej]; rfl, by rw [List.getElem?_map, hej]; rfl,
        by rw [List.getElem?_map, hej, ← a]; rfl, (reported_iff hbk hort).2 ⟨kf, ?_, hg⟩⟩
      rwa [Nat.sub_zero] at hk
    · intro k i pos depth hr
      obtain ⟨kf, hk, hg⟩ := (reported_iff hbk hort).1 hr
      obtain ⟨e, hem, hp⟩ := h4 k kf i pos depth hk (by rwa [Nat.zero_add])
      rw [Nat.zero_add] at hp
      exact List.mem_map.2 ⟨e, hem, hp⟩
  · rw [h2] at h
    cases h

/-- C91: the call ends normally exactly if there are enough keyframes and every depth that is read is known. -/
theorem C91_defined (c : Cam.Cam) (last : Bool) (kfs : List KfView) :
    (∃ out, projectOntoBaseKf c last kfs = .ok out) ↔ ∃ base, IsBase last kfs.length base ∧ DepthsKnown kfs base := by
  have key : ∀ base, DepthsKnown kfs base ↔ ∀ j kf, kfs[j]? = some kf → ¬ Bad base (0 + j) kf := by
    intro base
    constructor
    · rintro h j kf hj ⟨pt, hm, ha, hd⟩
      rw [Nat.zero_add] at ha
      obtain ⟨i, hi⟩ := List.mem_iff_getElem?.1 hm
      exact h j i kf pt ⟨hj, hi⟩ ha hd
    · rintro h k i kf pt ⟨hk, hi⟩ ha hd
      exact h k kf hk ⟨pt, List.mem_of_getElem? hi, by rwa [Nat.zero_add], hd⟩
  constructor
  · rintro ⟨out, h⟩
    cases hb : baseIndex last kfs.length with
    | error f =>
      unfold projectOntoBaseKf at h
      rw [hb] at h
      cases h
    | ok base =>
      rw [baseIndex_eq] at hb
      refine ⟨base, hb, (key base).2 ?_⟩
      obtain ⟨baseKf, hbk, he⟩ := project_eq c hb
      rw [he] at h
      rcases pushAll_spec c base baseKf.thisToWorld 0 kfs ⟨[], [], [], []⟩ with ⟨h1, -⟩ | ⟨-, h2⟩
      · exact h1
      · rw [h2] at h; cases h
  · rintro ⟨base, hb, hd⟩
    obtain ⟨baseKf, hbk, he⟩ := project_eq c hb
    rw [he]
    rcases pushAll_spec c base baseKf.thisToWorld 0 kfs ⟨[], [], [], []⟩ with ⟨-, es, h2, -⟩ | ⟨⟨j, kf, hj, hbad⟩, -⟩
    · exact ⟨_, h2⟩
    · exact absurd hbad ((key base).1 hd j kf hj)

/-- With too few keyframes, or when a depth that is read is not known, the behaviour is undefined. -/
theorem C91_otherwise (c : Cam.Cam) (last : Bool) (kfs : List KfView) (f : Fault)
    (h : projectOntoBaseKf c last kfs = .error f) : f = .ub := by
  cases hb : baseIndex last kfs.length with
  | error g =>
    have hg : g = .ub := by
      unfold baseIndex at hb
      split at hb <;> split at hb <;> cases hb <;> rfl
    unfold projectOntoBaseKf at h
    rw [hb] at h
    exact (Except.error.inj h).symm.trans hg
  | ok base =>
    rw [baseIndex_eq] at hb
    obtain ⟨baseKf, hbk, he⟩ := project_eq c hb
    rw [he] at h
    rcases pushAll_spec c base baseKf.thisToWorld 0 kfs ⟨[], [], [], []⟩ with ⟨-, es, h2, -⟩ | ⟨-, h2⟩
    · rw [h2] at h; cases h
    · rw [h2] at h; exact (Except.error.inj h).symm

end Mdso.Base
