import Verif.Spec.EpipolarStat
import Verif.Props.BaseProjection

/-!
# Properties of `stat_epipolar`: C109, C110, C134
-/

set_option autoImplicit false

namespace Mdso.Stat

open Mdso.Geom Mdso.Stat.Spec

variable {S P : Type}

/-! ## The invariant of all interleavings -/

/-- Task `k` belongs to range `k` and has got somewhere; the slots hold what has been found. -/
structure Inv (e : Env S P) (ranges : List (Nat × Nat)) (s : Sys S) : Prop where
  len : s.tasks.length = ranges.length
  task : ∀ (k : Nat) r t, ranges[k]? = some r → s.tasks[k]? = some t →
    t.stop = r.2 ∧ r.1 ≤ t.next ∧ (t.next ≤ r.2 ∨ t.next = r.1) ∧ Reaches e r.1 t.next t.loc ∧
      ∀ i, r.1 ≤ i → i < t.next → ErrorsFrom e r.1 i (s.errors i)
  ahead : ∀ i, (∀ (k : Nat) r t, ranges[k]? = some r → s.tasks[k]? = some t → ¬ (r.1 ≤ i ∧ i < t.next)) → s.errors i = []

theorem inv_launch (e : Env S P) (ranges : List (Nat × Nat)) : Inv e ranges (launch e ranges) where
  len := by simp [launch]
  task := by
    intro k r t hr ht
    simp only [launch, List.getElem?_map, hr, Option.map_some, Option.some.injEq] at ht
    subst ht
    exact ⟨rfl, le_refl _, Or.inr rfl, .fresh, fun i h1 h2 => absurd (lt_of_le_of_lt h1 h2) (lt_irrefl _)⟩
  ahead := fun _ _ => rfl

theorem splits_disjoint {n : Nat} {ranges : List (Nat × Nat)} (h : Splits n ranges) {j k : Nat} {r r' : Nat × Nat}
    (hj : ranges[j]? = some r) (hk : ranges[k]? = some r') {i : Nat} (h1 : r.1 ≤ i ∧ i < r.2) (h2 : r'.1 ≤ i ∧ i < r'.2) : j = k := by
  have hnd : (ranges.flatMap fun r => List.range' r.1 (r.2 - r.1)).Nodup := h.nodup_iff.2 List.nodup_range
  clear h
  induction ranges generalizing j k with
  | nil => simp at hj
  | cons a rs ih =>
    simp only [List.flatMap_cons, List.nodup_append] at hnd
    have mem : ∀ {m : Nat} {q : Nat × Nat}, rs[m]? = some q → q.1 ≤ i ∧ i < q.2 →
        i ∈ rs.flatMap fun r => List.range' r.1 (r.2 - r.1) := by
      intro m q hm hq
      refine List.mem_flatMap.2 ⟨q, List.mem_of_getElem? hm, ?_⟩
      rw [List.mem_range'_1]
      omega
    have mema : ∀ {q : Nat × Nat}, q.1 ≤ i ∧ i < q.2 → i ∈ List.range' q.1 (q.2 - q.1) := by
      intro q hq
      rw [List.mem_range'_1]
      omega
    cases j with
    | zero =>
      cases k with
      | zero => rfl
      | succ k =>
        simp only [List.getElem?_cons_zero, Option.some.injEq] at hj
        simp only [List.getElem?_cons_succ] at hk
        subst hj
        exact absurd rfl (hnd.2.2 i (mema h1) i (mem hk h2))
    | succ j =>
      cases k with
      | zero =>
        simp only [List.getElem?_cons_zero, Option.some.injEq] at hk
        simp only [List.getElem?_cons_succ] at hj
        subst hk
        exact absurd rfl (hnd.2.2 i (mema h2) i (mem hj h1))
      | succ k =>
        simp only [List.getElem?_cons_succ] at hj hk
        rw [ih hj hk hnd.2.1]

theorem inv_step {e : Env S P} {n : Nat} {ranges : List (Nat × Nat)} (hs : Splits n ranges) {k : Nat} {s s' : Sys S}
    (h : Inv e ranges s) (hst : step e k s = .ok s') : Inv e ranges s' := by
  unfold step at hst
  cases ht : s.tasks[k]? with
  | none => simp only [ht] at hst; cases hst; exact h
  | some t =>
    simp only [ht] at hst
    by_cases hlt : t.next < t.stop
    · rw [if_pos hlt] at hst
      cases hb : body e t.loc (e.startFrame + t.next) with
      | error f => simp only [hb, bind, Except.bind] at hst; cases hst
      | ok b =>
        obtain ⟨l', errs⟩ := b
        simp only [hb, bind, Except.bind] at hst
        cases hst
        have hk : k < s.tasks.length := (List.getElem?_eq_some_iff.1 ht).1
        have hkr : k < ranges.length := h.len ▸ hk
        obtain ⟨r, hr⟩ : ∃ r, ranges[k]? = some r := ⟨_, List.getElem?_eq_getElem hkr⟩
        obtain ⟨t1, t2, t3, t4, t5⟩ := h.task k r t hr ht
        have hin : r.1 ≤ t.next ∧ t.next < r.2 := ⟨t2, t1 ▸ hlt⟩
        have hempty : s.errors t.next = [] := by
          refine h.ahead _ ?_
          rintro j r' t' hr' ht' ⟨c1, c2⟩
          obtain ⟨u1, u2, u3, -, -⟩ := h.task j r' t' hr' ht'
          have hin' : r'.1 ≤ t.next ∧ t.next < r'.2 := ⟨c1, by omega⟩
          have := splits_disjoint hs hr hr' hin hin'
          subst this
          rw [ht] at ht'
          cases ht'
          omega
        refine ⟨by simpa using h.len, ?_, ?_⟩
        · intro j r' t' hr' ht'
          by_cases hjk : k = j
          · subst hjk
            rw [hr] at hr'
            cases hr'
            simp only [List.getElem?_set_self hk, Option.some.injEq] at ht'
            subst ht'
            refine ⟨t1, by simp only; omega, Or.inl (by simp only; omega), .next t4 hb, ?_⟩
            intro i hi1 hi2
            by_cases hi : i = t.next
            · subst hi
              simp only [Function.update_self, hempty, List.nil_append]
              exact ⟨_, _, t4, hb⟩
            · simp only [Function.update_of_ne hi]
              exact t5 i hi1 (by simp only at hi2; omega)
          · simp only [List.getElem?_set_ne hjk] at ht'
            obtain ⟨u1, u2, u3, u4, u5⟩ := h.task j r' t' hr' ht'
            refine ⟨u1, u2, u3, u4, ?_⟩
            intro i hi1 hi2
            have hi : i ≠ t.next := by
              rintro rfl
              exact hjk (splits_disjoint hs hr hr' hin ⟨hi1, by omega⟩)
            simp only [Function.update_of_ne hi]
            exact u5 i hi1 hi2
        · intro i hi
          have hne : i ≠ t.next := by
            rintro rfl
            exact hi k r _ hr (List.getElem?_set_self hk) ⟨t2, Nat.lt_succ_self _⟩
          simp only [Function.update_of_ne hne]
          refine h.ahead i ?_
          rintro j r' t' hr' ht' ⟨c1, c2⟩
          by_cases hjk : k = j
          · subst hjk
            rw [hr] at hr'; cases hr'
            rw [ht] at ht'; cases ht'
            exact hi k r _ hr (List.getElem?_set_self hk) ⟨c1, by simp only; omega⟩
          · exact hi j r' t' hr' (by simp only [List.getElem?_set_ne hjk]; exact ht') ⟨c1, c2⟩
    · rw [if_neg hlt] at hst
      cases hst
      exact h

theorem inv_run {e : Env S P} {n : Nat} {ranges : List (Nat × Nat)} (hs : Splits n ranges) (ks : List Nat) {s s' : Sys S}
    (h : Inv e ranges s) (hr : run e ks s = .ok s') : Inv e ranges s' := by
  induction ks generalizing s with
  | nil => cases hr; exact h
  | cons k ks ih =>
    simp only [run] at hr
    cases hk : step e k s with
    | error f => simp only [hk, bind, Except.bind] at hr; cases hr
    | ok s1 =>
      simp only [hk, bind, Except.bind] at hr
      exact ih (inv_step hs h hk) hr

/-! ## C109 -/

/-- C109: however the frames are split into ranges and in whatever order the workers go on, when all are done the file holds, frame by frame in
the order of their numbers, the errors found for the frame by a worker that started afresh at the beginning of the frame's range. -/
theorem C109_interleaving {e : Env S P} {ranges : List (Nat × Nat)} (hs : Splits (testCount e).toNat ranges) {schedule : List Nat}
    {s : Sys S} (h : collectEpipolarStat e ranges schedule = .ok s) (hd : s.done) :
    ∃ f : Nat → List EpiErr, allErr (testCount e).toNat s = (List.range (testCount e).toNat).flatMap f ∧
      ∀ i, i < (testCount e).toNat → ∃ r ∈ ranges, r.1 ≤ i ∧ i < r.2 ∧ ErrorsFrom e r.1 i (f i) := by
  unfold collectEpipolarStat at h
  split at h
  · cases h
  · have hi := inv_run hs schedule (inv_launch e ranges) h
    refine ⟨s.errors, rfl, ?_⟩
    intro i hlt
    have hm : i ∈ ranges.flatMap fun r => List.range' r.1 (r.2 - r.1) := hs.mem_iff.2 (List.mem_range.2 hlt)
    obtain ⟨r, hr, hir⟩ := List.mem_flatMap.1 hm
    rw [List.mem_range'_1] at hir
    refine ⟨r, hr, hir.1, by omega, ?_⟩
    obtain ⟨k, hk⟩ := List.mem_iff_getElem?.1 hr
    have hkl : k < s.tasks.length := by rw [hi.len]; exact (List.getElem?_eq_some_iff.1 hk).1
    obtain ⟨t1, t2, t3, t4, t5⟩ := hi.task k r _ hk (List.getElem?_eq_getElem hkl)
    have := hd _ (List.getElem_mem hkl)
    exact t5 i hir.1 (by omega)

theorem reaches_det {e : Env S P} {start i : Nat} {l l' : Local S} (h : Reaches e start i l) (h' : Reaches e start i l') : l = l' := by
  have ge : ∀ {i l}, Reaches e start i l → start ≤ i := by
    intro i l h
    induction h with
    | fresh => exact le_refl _
    | next _ _ ih => omega
  induction h generalizing l' with
  | fresh =>
    generalize hs : start = j at h'
    cases h' with
    | fresh => rfl
    | next h1 _ => have := ge (hs ▸ h1); omega
  | @next i l l1 errs h1 hb ih =>
    generalize hj : i + 1 = j at h'
    cases h' with
    | fresh => have := ge h1; omega
    | @next i' l2 l3 errs' h2 hb' =>
      have : i = i' := by omega
      subst this
      have := ih h2
      subst this
      rw [hb] at hb'
      cases hb'
      rfl

theorem errors_det {e : Env S P} {start i : Nat} {a b : List EpiErr} (h : ErrorsFrom e start i a) (h' : ErrorsFrom e start i b) : a = b := by
  obtain ⟨l, l1, h1, h2⟩ := h
  obtain ⟨m, m1, h3, h4⟩ := h'
  rw [reaches_det h1 h3, h4] at h2
  cases h2
  rfl

/-- C109: for the same ranges, whatever the order of the workers, the file is the same. -/
theorem C109_schedule {e : Env S P} {ranges ranges' : List (Nat × Nat)} (hs : Splits (testCount e).toNat ranges)
    (hp : ranges.Perm ranges') {schedule schedule' : List Nat} {s s' : Sys S} (h : collectEpipolarStat e ranges schedule = .ok s)
    (hd : s.done) (h' : collectEpipolarStat e ranges' schedule' = .ok s') (hd' : s'.done) :
    allErr (testCount e).toNat s = allErr (testCount e).toNat s' := by
  have hs' : Splits (testCount e).toNat ranges' := (hp.flatMap_right _).symm.trans hs
  obtain ⟨f, f1, f2⟩ := C109_interleaving hs h hd
  obtain ⟨g, g1, g2⟩ := C109_interleaving hs' h' hd'
  rw [f1, g1]
  refine List.flatMap_congr fun i hi => ?_
  have hi := List.mem_range.1 hi
  obtain ⟨r, r1, r2, r3, r4⟩ := f2 i hi
  obtain ⟨q, q1, q2, q3, q4⟩ := g2 i hi
  have hq := hp.mem_iff.2 q1
  obtain ⟨j, hj⟩ := List.mem_iff_getElem?.1 r1
  obtain ⟨k, hk⟩ := List.mem_iff_getElem?.1 hq
  have := splits_disjoint hs hj hk ⟨r2, r3⟩ ⟨q2, q3⟩
  subst this
  rw [hj] at hk
  cases hk
  exact errors_det r4 q4

/-- C109, what the result depends on: with perturbed motions, the frame `i` of a range that starts at `start` is traced with perturbation number
`i - start`. -/
theorem C109_noise {e : Env S P} (hp : e.precise = false) {start i : Nat} {l : Local S} (h : Reaches e start i l) : l.drawn = i - start := by
  have ge : start ≤ i ∧ l.drawn = i - start := by
    induction h with
    | fresh => exact ⟨le_refl _, by simp⟩
    | @next i l l' errs h1 hb ih =>
      refine ⟨by omega, ?_⟩
      unfold body at hb
      cases h2 : pose e (e.startFrame + i + e.shift) with
      | error f => simp only [h2, bind, Except.bind] at hb; cases hb
      | ok p2 =>
        cases h3 : pose e (e.startFrame + i) with
        | error f => simp only [h2, h3, bind, Except.bind] at hb; cases hb
        | ok p1 =>
          cases h4 : e.select l.selector (e.startFrame + i) with
          | error f => simp only [h2, h3, h4, bind, Except.bind] at hb; cases hb
          | ok sel =>
            simp only [h2, h3, h4, bind, Except.bind] at hb
            cases hb
            simp only [motionFor, hp, Bool.false_eq_true, if_false]
            omega
  exact ge.2

/-- The parts of the body of the loop. -/
theorem body_eq {e : Env S P} {l l' : Local S} {n : Int} {errs : List EpiErr} (h : body e l n = .ok (l', errs)) :
    ∃ p1 p2 sel, pose e n = .ok p1 ∧ pose e (n + e.shift) = .ok p2 ∧ e.select l.selector n = .ok sel ∧ l'.selector = sel.1 ∧
      errs = ((e.trace n (n + e.shift) (motionFor e l.drawn (Base.compose p2 (Base.inverse p1))).1 sel.2).filter
        fun ip => ip.active && ip.hasMaxDepth).map
          (epiErr e n (Base.compose p2 (Base.inverse p1)) (motionFor e l.drawn (Base.compose p2 (Base.inverse p1))).1) := by
  unfold body at h
  cases h2 : pose e (n + e.shift) with
  | error f => simp only [h2, bind, Except.bind] at h; cases h
  | ok p2 =>
    cases h3 : pose e n with
    | error f => simp only [h2, h3, bind, Except.bind] at h; cases h
    | ok p1 =>
      cases h4 : e.select l.selector n with
      | error f => simp only [h2, h3, h4, bind, Except.bind] at h; cases h
      | ok sel =>
        simp only [h2, h3, h4, bind, Except.bind] at h
        cases h
        exact ⟨p1, p2, sel, rfl, rfl, rfl, rfl, rfl⟩

/-- C109, what the result depends on: the pixels of frame `i` are selected by a selector that has gone through the frames of its range before it. -/
theorem C109_selector {e : Env S P} {start i : Nat} {l : Local S} (h : Reaches e start i l) : SelectorAt e start i l.selector := by
  induction h with
  | fresh => exact .fresh
  | @next i l l' errs h1 hb ih =>
    obtain ⟨-, -, sel, -, -, h4, h5, -⟩ := body_eq hb
    rw [h5]
    exact .next ih h4

/-- The errors of a frame do not depend on the state of the worker. -/
def Stateless (e : Env S P) : Prop :=
  e.precise = true ∧ ∀ a b n ra rb, e.select a n = .ok ra → e.select b n = .ok rb → ra.2 = rb.2

theorem body_stateless {e : Env S P} (h : Stateless e) {l m : Local S} {n : Int} {a b : Local S × List EpiErr} (ha : body e l n = .ok a)
    (hb : body e m n = .ok b) : a.2 = b.2 := by
  unfold body at ha hb
  cases h2 : pose e (n + e.shift) with
  | error f => simp only [h2, bind, Except.bind] at ha; cases ha
  | ok p2 =>
    cases h3 : pose e n with
    | error f => simp only [h2, h3, bind, Except.bind] at ha; cases ha
    | ok p1 =>
      cases h4 : e.select l.selector n with
      | error f => simp only [h2, h3, h4, bind, Except.bind] at ha; cases ha
      | ok sel =>
        cases h5 : e.select m.selector n with
        | error f => simp only [h2, h3, h5, bind, Except.bind] at hb; cases hb
        | ok sel' =>
          simp only [h2, h3, h4, h5, bind, Except.bind] at ha hb
          cases ha
          cases hb
          simp only [motionFor, h.1, if_true]
          rw [h.2 _ _ _ _ _ h4 h5]

/-- C109, in part: if the exact motions are used and the pixels selected in a frame do not depend on the frames before it, the file does not
depend on how the work is split. -/
theorem C109_split_partial {e : Env S P} (hst : Stateless e) {ranges ranges' : List (Nat × Nat)} (hs : Splits (testCount e).toNat ranges)
    (hs' : Splits (testCount e).toNat ranges') {schedule schedule' : List Nat} {s s' : Sys S}
    (h : collectEpipolarStat e ranges schedule = .ok s) (hd : s.done) (h' : collectEpipolarStat e ranges' schedule' = .ok s')
    (hd' : s'.done) : allErr (testCount e).toNat s = allErr (testCount e).toNat s' := by
  obtain ⟨f, f1, f2⟩ := C109_interleaving hs h hd
  obtain ⟨g, g1, g2⟩ := C109_interleaving hs' h' hd'
  rw [f1, g1]
  refine List.flatMap_congr fun i hi => ?_
  have hi := List.mem_range.1 hi
  obtain ⟨r, -, -, -, l, l1, -, r4⟩ := f2 i hi
  obtain ⟨q, -, -, -, m, m1, -, q4⟩ := g2 i hi
  exact body_stateless hst r4 q4

/-! ### A concrete program run -/

/-- Two frames; a perturbation moves by its number; the depth found for the only point is the length of the motion along x. -/
noncomputable def exEnv (precise : Bool) (c : Cam.Cam) : Env Unit Unit where
  startFrame := 0
  endFrame := 1
  shift := 1
  precise := precise
  cam := c
  table := [Base.inverse ⟨M3.one, 0⟩, Base.inverse ⟨M3.one, 0⟩, Base.inverse ⟨M3.one, 0⟩]
  depths := fun _ _ => 1
  fresh := ()
  select := fun _ _ => .ok ((), [()])
  trace := fun _ _ m _ => [⟨⟨0, 0⟩, true, true, m.t.x, 0, 0, 0, 0⟩]
  perturb := fun k m => ⟨m.rot, ⟨k, 0, 0⟩⟩

theorem exEnv_count (b : Bool) (c : Cam.Cam) : testCount (exEnv b c) = 2 := by
  simp [testCount, exEnv, totalFrames]

theorem exEnv_fresh (b : Bool) (c : Cam.Cam) : (exEnv b c).fresh = () := rfl

theorem ex_splits : Splits 2 [(0, 2)] ∧ Splits 2 [(0, 1), (1, 2)] := by
  constructor <;> exact List.Perm.refl _

theorem exBody (b : Bool) (c : Cam.Cam) (l : Local Unit) (n : Nat) (hn : n < 2) :
    ∃ errs l', body (exEnv b c) l n = .ok (l', errs) ∧ l'.drawn = (if b then l.drawn else l.drawn + 1) ∧
      (b = false → errs.map EpiErr.depth = [(l.drawn : ℝ)]) := by
  have hp : ∀ n : Nat, n < 3 → pose (exEnv b c) n = .ok (Base.inverse ⟨M3.one, 0⟩) := by
    intro n hn
    rcases n with _ | _ | _ | n
    · rfl
    · rfl
    · rfl
    · omega
  have h1 := hp n (by omega)
  have h2 := hp (n + 1) (by omega)
  push_cast at h2
  refine ⟨?er, ⟨(), ?dr⟩, ?e, ?d, ?x⟩
  case e =>
    unfold body
    have : (exEnv b c).shift = 1 := rfl
    rw [this, h2, h1]
    simp only [bind, Except.bind]
    rfl
  case d => cases b <;> rfl
  case x =>
    rintro rfl
    rfl

/-- C109 is violated: the file depends on how the work is split. One worker for both frames traces the second one with the second perturbation;
two workers, each with a freshly seeded generator, both use the first one. -/
theorem C109_split_violated (c : Cam.Cam) :
    ∃ s s', collectEpipolarStat (exEnv false c) [(0, 2)] [0, 0] = .ok s ∧ s.done ∧
      collectEpipolarStat (exEnv false c) [(0, 1), (1, 2)] [0, 1] = .ok s' ∧ s'.done ∧
      (allErr 2 s).map EpiErr.depth = [0, 1] ∧ (allErr 2 s').map EpiErr.depth = [0, 0] := by
  have hc : ¬ testCount (exEnv false c) ≤ 0 := by rw [exEnv_count]; decide
  obtain ⟨e1, l1, b1, d1, x1⟩ := exBody false c ⟨(), 0⟩ 0 (by decide)
  obtain ⟨e2, l2, b2, d2, x2⟩ := exBody false c l1 1 (by decide)
  obtain ⟨e3, l3, b3, d3, x3⟩ := exBody false c ⟨(), 0⟩ 1 (by decide)
  have hz : (exEnv false c).startFrame = 0 := rfl
  simp only [Nat.cast_zero, Nat.cast_one] at b1 b2 b3
  simp only [Bool.false_eq_true, if_false] at d1
  refine ⟨⟨[⟨2, 2, l2⟩], Function.update (Function.update (fun _ => []) 0 e1) 1 e2⟩,
    ⟨[⟨1, 1, l1⟩, ⟨2, 2, l3⟩], Function.update (Function.update (fun _ => []) 0 e1) 1 e3⟩, ?_, ?_, ?_, ?_, ?_, ?_⟩
  · unfold collectEpipolarStat
    rw [if_neg hc]
    simp [launch, run, step, hz, b1, b2, bind, Except.bind, exEnv_fresh]
  · intro t ht
    simp at ht
    subst ht
    exact le_refl _
  · unfold collectEpipolarStat
    rw [if_neg hc]
    simp [launch, run, step, hz, b1, b3, bind, Except.bind, exEnv_fresh]
  · intro t ht
    simp at ht
    rcases ht with rfl | rfl <;> exact le_refl _
  · simp [allErr, List.range_succ, x1 rfl, x2 rfl, d1]
  · simp [allErr, List.range_succ, x1 rfl, x3 rfl]

/-! ## C110 -/

theorem body_ok {e : Env S P} (hsel : ∀ a n, ∃ r, e.select a n = .ok r) {l : Local S} {n : Int} (h0 : 0 ≤ n) (h1 : n.toNat < e.table.length)
    (h2 : 0 ≤ n + e.shift) (h3 : (n + e.shift).toNat < e.table.length) : ∃ r, body e l n = .ok r := by
  obtain ⟨r, hr⟩ := hsel l.selector n
  refine ⟨?w, ?e⟩
  case e =>
    unfold body pose
    rw [if_pos h2, if_pos h0, at'_lt h3, at'_lt h1]
    simp only [bind, Except.bind, hr]
    rfl

/-- Every range consists of numbers below `n`. -/
theorem splits_bound {n : Nat} {ranges : List (Nat × Nat)} (h : Splits n ranges) {r : Nat × Nat} (hr : r ∈ ranges) {i : Nat} (h1 : r.1 ≤ i)
    (h2 : i < r.2) : i < n := by
  have : i ∈ ranges.flatMap fun r => List.range' r.1 (r.2 - r.1) := by
    refine List.mem_flatMap.2 ⟨r, hr, ?_⟩
    rw [List.mem_range'_1]
    omega
  exact List.mem_range.1 (h.mem_iff.1 this)

theorem step_ok {e : Env S P} (hsel : ∀ a n, ∃ r, e.select a n = .ok r) (h0 : 0 ≤ e.startFrame) (hsh : 0 ≤ e.shift)
    (hlen : e.startFrame + testCount e - 1 + e.shift < e.table.length) {ranges : List (Nat × Nat)}
    (hs : Splits (testCount e).toNat ranges) {s : Sys S} (hi : Inv e ranges s) (k : Nat) : ∃ s', step e k s = .ok s' := by
  unfold step
  cases ht : s.tasks[k]? with
  | none => exact ⟨s, rfl⟩
  | some t =>
    by_cases hlt : t.next < t.stop
    · have hk : k < s.tasks.length := (List.getElem?_eq_some_iff.1 ht).1
      obtain ⟨r, hr⟩ : ∃ r, ranges[k]? = some r := ⟨_, List.getElem?_eq_getElem (hi.len ▸ hk)⟩
      obtain ⟨t1, t2, -, -, -⟩ := hi.task k r t hr ht
      have hb := splits_bound hs (List.mem_of_getElem? hr) t2 (t1 ▸ hlt)
      obtain ⟨b, hb⟩ := body_ok hsel (l := t.loc) (n := e.startFrame + t.next) (by omega) (by omega) (by omega) (by omega)
      exact ⟨_, by simp only [if_pos hlt, hb, bind, Except.bind]; rfl⟩
    · exact ⟨s, by simp only [if_neg hlt]⟩

theorem testCount_eq (e : Env S P) : testCount e = lastFirst e - e.startFrame + 1 := rfl

/-- C110: if the poses of all frames used are known, every split and every schedule ends normally. -/
theorem C110_partial {e : Env S P} (hsel : ∀ a n, ∃ r, e.select a n = .ok r) (h0 : 0 ≤ e.startFrame) (hsh : 0 ≤ e.shift)
    (hpos : e.startFrame ≤ lastFirst e) (hlen : lastFirst e + e.shift < e.table.length) {ranges : List (Nat × Nat)}
    (hs : Splits (lastFirst e - e.startFrame + 1).toNat ranges) (schedule : List Nat) : ∃ s, collectEpipolarStat e ranges schedule = .ok s := by
  rw [← testCount_eq] at hs
  have hc := testCount_eq e
  have hlen : e.startFrame + testCount e - 1 + e.shift < e.table.length := by omega
  unfold collectEpipolarStat
  rw [if_neg (by omega)]
  have := inv_launch e ranges
  generalize launch e ranges = s at this
  induction schedule generalizing s with
  | nil => exact ⟨s, rfl⟩
  | cons k ks ih =>
    obtain ⟨s', h'⟩ := step_ok hsel h0 hsh hlen hs this k
    obtain ⟨s2, h2⟩ := ih s' (inv_step hs this h')
    exact ⟨s2, by simp only [run, h', bind, Except.bind, h2]⟩

/-- C110 is violated: the number of frames is a constant of the program and not asked of the data set. If the poses of the last frames used are
missing, no run ends normally. -/
theorem C110_short_violated {e : Env S P} (h0 : 0 ≤ e.startFrame) (hsh : 0 ≤ e.shift)
    (hlen : e.table.length ≤ lastFirst e + e.shift) {ranges : List (Nat × Nat)}
    (hs : Splits (lastFirst e - e.startFrame + 1).toNat ranges) (schedule : List Nat) {s : Sys S}
    (h : collectEpipolarStat e ranges schedule = .ok s) : ¬ s.done := by
  rw [← testCount_eq] at hs
  have hc := testCount_eq e
  have hlen : e.table.length ≤ e.startFrame + testCount e - 1 + e.shift := by omega
  intro hd
  have hpos : 0 < testCount e := by
    by_contra hn
    unfold collectEpipolarStat at h
    rw [if_pos (by omega)] at h
    cases h
  obtain ⟨f, -, hf⟩ := C109_interleaving hs h hd
  obtain ⟨r, -, -, -, l, l', -, hb⟩ := hf ((testCount e).toNat - 1) (by omega)
  unfold body at hb
  have : pose e (e.startFrame + ((testCount e).toNat - 1 : Nat) + e.shift) = .error .ub := by
    unfold pose
    rw [if_pos (by omega)]
    unfold at'
    rw [List.getElem?_eq_none (by omega)]
  rw [this] at hb
  cases hb

/-- With the default flags this happens for every data set with fewer than 2454 entries in its list of poses. -/
theorem default_count {e : Env S P} (h1 : e.startFrame = 2) (h2 : e.endFrame = 2450) (h3 : e.shift = 3) :
    testCount e = 2449 ∧ lastFirst e + e.shift = 2453 := by
  simp [testCount, totalFrames, lastFirst, h1, h2, h3]

/-- C110: without a frame to examine the arrays have no elements, which is undefined. -/
theorem C110_empty_violated {e : Env S P} (h : e.endFrame < e.startFrame) (ranges : List (Nat × Nat)) (schedule : List Nat) :
    collectEpipolarStat e ranges schedule = .error .ub := by
  unfold collectEpipolarStat testCount
  rw [if_pos (by have := min_le_left e.endFrame (totalFrames - e.shift); omega)]

/-! ## C134 -/

theorem pose_eq {e : Env S P} {n : Int} {p : Motion3} (h : pose e n = .ok p) : 0 ≤ n ∧ e.table[n.toNat]? = some p := by
  unfold pose at h
  split at h
  · rename_i h0; exact ⟨h0, at'_ok h⟩
  · cases h

/-- The errors of a point, in terms of the world. -/
theorem epiErr_judges (e : Env S P) (first : Int) {p1 p2 : Motion3} (ho : Base.Spec.Orthogonal p1.rot) (motion : Motion3) (ip : Traced) :
    Judges e first p1 p2 motion ip (epiErr e first (Base.compose p2 (Base.inverse p1)) motion ip) := by
  have key : ∀ X v : V3, p1.act X = v → (Base.compose p2 (Base.inverse p1)).act v = p2.act X := by
    intro X v h
    rw [Base.act_compose, ← h, (Base.act_inverse ho X).2]
  constructor
  · intro X hX; rw [← key X _ hX]; rfl
  · intro X hX; rw [← key X _ hX]; rfl
  · rfl
  · intro h; exact ⟨Real.sqrt_nonneg _, Real.sq_sqrt h⟩
  · rfl
  · rfl
  · rfl
  · rfl
  · rfl

/-- C134: the errors of a frame are, one by one, those of the points that were traced to a bounded depth, in the order of the points; each tells the true
error. The points are traced with the true relative motion, or with the perturbation of it that is next. -/
theorem C134_errors {e : Env S P} (ho : ∀ p ∈ e.table, Base.Spec.Orthogonal p.rot) {start i : Nat} {errs : List EpiErr} (h : ErrorsFrom e start i errs) :
    ∃ a sel p1 p2 motion gt, SelectorAt e start i a ∧ e.select a (e.startFrame + i) = .ok sel ∧
      e.table[(e.startFrame + i).toNat]? = some p1 ∧ e.table[(e.startFrame + i + e.shift).toNat]? = some p2 ∧
      (∀ X, gt.act (p1.act X) = p2.act X) ∧ motion = (if e.precise then gt else e.perturb (i - start) gt) ∧
      List.Forall₂ (Judges e (e.startFrame + i) p1 p2 motion)
        ((e.trace (e.startFrame + i) (e.startFrame + i + e.shift) motion sel.2).filter fun ip => decide (ip.active = true ∧ ip.hasMaxDepth = true)) errs := by
  obtain ⟨l, l', hr, hb⟩ := h
  obtain ⟨p1, p2, sel, h1, h2, h3, -, h5⟩ := body_eq hb
  obtain ⟨-, t1⟩ := pose_eq h1
  obtain ⟨-, t2⟩ := pose_eq h2
  have o1 := ho p1 (List.mem_of_getElem? t1)
  refine ⟨l.selector, sel, p1, p2, (motionFor e l.drawn (Base.compose p2 (Base.inverse p1))).1, Base.compose p2 (Base.inverse p1), C109_selector hr, h3,
    t1, t2, ?_, ?_, ?_⟩
  · intro X; rw [Base.act_compose, (Base.act_inverse o1 X).2]
  · unfold motionFor
    by_cases hp : e.precise = true
    · simp [hp]
    · have hp' : e.precise = false := by simpa using hp
      rw [C109_noise hp' hr]
      simp [hp']
  · rw [h5]
    have hf : (fun ip : Traced => decide (ip.active = true ∧ ip.hasMaxDepth = true)) = fun ip => ip.active && ip.hasMaxDepth := by
      funext ip; cases ip.active <;> cases ip.hasMaxDepth <;> rfl
    rw [hf, List.forall₂_map_right_iff, List.forall₂_same]
    intro ip _
    exact epiErr_judges e _ o1 _ ip

theorem exists_of_forall₂ {α β : Type} {R : α → β → Prop} {l : List α} {m : List β} (h : List.Forall₂ R l m) {b : β} (hb : b ∈ m) : ∃ a, R a b := by
  induction h with
  | nil => cases hb
  | cons h1 _ ih =>
    rcases List.mem_cons.1 hb with rfl | hb
    · exact ⟨_, h1⟩
    · exact ih hb

/-- C134: with precise placement a point traced to its true depth is reported with no error. -/
theorem C134_exact {e : Env S P} (ho : ∀ p ∈ e.table, Base.Spec.Orthogonal p.rot) (hp : e.precise = true) {start i : Nat} {errs : List EpiErr}
    (h : ErrorsFrom e start i errs) : ∀ err ∈ errs, err.depth = err.depthGT → err.realErr = 0 := by
  obtain ⟨a, sel, p1, p2, motion, gt, -, -, t1, -, hgt, hm, hF⟩ := C134_errors ho h
  have o1 := ho p1 (List.mem_of_getElem? t1)
  rw [hp, if_pos rfl] at hm
  intro err he hd
  obtain ⟨ip, hj⟩ := exists_of_forall₂ hF he
  have hX := (Base.act_inverse o1 (e.depths (e.startFrame + i) ip.p • (Cam.unmap e.cam ip.p).normalized)).1
  rw [hj.realErr _ hX, ← hj.depth, hd, hj.depthGT, hm, ← hgt, hX]
  simp [Cam.norm2, sqNorm]

/-! ## Non-vacuity -/

theorem exEnv_last (b : Bool) (c : Cam.Cam) : lastFirst (exEnv b c) = 1 := by simp [lastFirst, exEnv]

example (c : Cam.Cam) := C110_partial (e := exEnv false c) (fun _ _ => ⟨_, rfl⟩) (le_refl _) (show (0 : Int) ≤ 1 by decide)
  (by rw [exEnv_last]; show (0 : Int) ≤ 1; decide) (by rw [exEnv_last]; show (1 : Int) + 1 < 3; decide) (by rw [exEnv_last]; exact ex_splits.2) [1, 0]
example (c : Cam.Cam) : ∃ l, Reaches (exEnv false c) 0 1 l ∧ l.drawn = 1 := by
  obtain ⟨e1, l1, b1, -, -⟩ := exBody false c ⟨(), 0⟩ 0 (by decide)
  have h : Reaches (exEnv false c) 0 1 l1 := .next .fresh b1
  exact ⟨l1, h, C109_noise rfl h⟩
example (c : Cam.Cam) : Stateless (exEnv true c) := ⟨rfl, by rintro a b n ra rb ⟨⟩ ⟨⟩; rfl⟩

/-- The hypotheses of C109 hold for the two runs of `C109_split_violated`. -/
example (c : Cam.Cam) : ∃ s, collectEpipolarStat (exEnv false c) [(0, 2)] [0, 0] = .ok s ∧
    ∃ f : Nat → List EpiErr, allErr 2 s = (List.range 2).flatMap f := by
  obtain ⟨s, -, h, hd, -⟩ := C109_split_violated c
  obtain ⟨f, hf, -⟩ := C109_interleaving (by rw [exEnv_count]; exact ex_splits.1) h hd
  rw [exEnv_count] at hf
  exact ⟨s, h, f, hf⟩

/-- A frame with an error to report. -/
example (c : Cam.Cam) : ∃ errs, ErrorsFrom (exEnv true c) 0 1 errs ∧ ∀ p ∈ (exEnv true c).table, Base.Spec.Orthogonal p.rot := by
  obtain ⟨e1, l1, b1, -, -⟩ := exBody true c ⟨(), 0⟩ 0 (by decide)
  obtain ⟨e2, l2, b2, -, -⟩ := exBody true c l1 1 (by decide)
  refine ⟨e2, ⟨l1, l2, .next .fresh b1, b2⟩, ?_⟩
  intro p hp
  simp only [exEnv, List.mem_cons, List.not_mem_nil, or_false, or_self] at hp
  subst hp
  intro v
  constructor <;> ext <;> simp [Base.inverse, M3.one, M3.transpose, M3.mulVec, V3.dot]

end Mdso.Stat
