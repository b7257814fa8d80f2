import Verif.Spec.PointHistory
import Verif.Props.PointLife

/-!
# C173: what the estimates of the points are made of
-/

set_option autoImplicit false

namespace Mdso.Life

open Mdso.FrameSpec
open Mdso (Fault)

variable {G : Type}

/-! ## Histories that grow by one frame -/

theorem framesAfter_snoc {skip : Nat} {n : Int} {xs : List (FrameIn G)} {x : FrameIn G} (hl : skip + 2 ≤ xs.length) (hn : n < x.sys.num) :
    framesAfter skip n (xs ++ [x]) = framesAfter skip n xs ++ [x] := by
  unfold framesAfter
  rw [List.drop_append_of_le_length hl, List.filter_append]
  simp [hn]

theorem framesAfter_own {skip : Nat} {xs : List (FrameIn G)} {x : FrameIn G} (h : ∀ y ∈ xs, y.sys.num < x.sys.num) :
    framesAfter skip x.sys.num (xs ++ [x]) = [] := by
  unfold framesAfter
  rw [List.filter_eq_nil_iff]
  intro y hy
  have hy := List.mem_of_mem_drop hy
  rcases List.mem_append.1 hy with hy | hy
  · have := h y hy
    simp; omega
  · simp only [List.mem_cons, List.not_mem_nil, or_false] at hy
    subst hy
    simp

theorem tracedThrough_snoc (n : Int) (fs : List (FrameIn G)) (x : FrameIn G) (ip : Act.Immature) :
    tracedThrough n (fs ++ [x]) ip = traceOn (x.trace n) (tracedThrough n fs ip) := by
  unfold tracedThrough
  rw [List.foldl_append]
  rfl

theorem tracedThrough_nil (n : Int) (ip : Act.Immature) : tracedThrough n ([] : List (FrameIn G)) ip = ip := rfl

theorem adjustPoint_eq (r : Act.Optimized → ℝ × Mark) (op : Act.Optimized) :
    adjustPoint r op = ⟨op.p, (r op).1, op.stddev, marked op.state (r op).2⟩ := by
  unfold adjustPoint
  cases h : op.state <;> cases h2 : (r op).2 <;> simp [marked]

theorem adjustedThrough_snoc_on (n : Int) (fs : List (FrameIn G)) (x : FrameIn G) (op : Act.Optimized) :
    adjustedThrough true n (fs ++ [x]) op = adjustPoint (x.ba n) (adjustedThrough true n fs op) := by
  unfold adjustedThrough
  rw [if_pos rfl, if_pos rfl, List.foldl_append, adjustPoint_eq]
  rfl

theorem keyFramesFrom_same {P : Policy} {m : Int} {xs : List (FrameIn G)} {x : FrameIn G}
    (hk : (book P ((xs ++ [x]).map (·.sys.num))).keyFrames = (book P (xs.map (·.sys.num))).keyFrames)
    (hx : x.sys.num ∉ (book P (xs.map (·.sys.num))).keyFrames) : keyFramesFrom P m (xs ++ [x]) = keyFramesFrom P m xs := by
  unfold keyFramesFrom
  rw [hk, List.filter_append]
  simp [hx]

theorem keyFramesFrom_more {P : Policy} {m : Int} {xs : List (FrameIn G)} {x : FrameIn G}
    (hk : (book P ((xs ++ [x]).map (·.sys.num))).keyFrames = (book P (xs.map (·.sys.num))).keyFrames ++ [x.sys.num])
    (hx : ∀ y ∈ xs, y.sys.num < x.sys.num) (hm : m ≤ x.sys.num) : keyFramesFrom P m (xs ++ [x]) = keyFramesFrom P m xs ++ [x] := by
  unfold keyFramesFrom
  rw [hk, List.filter_append]
  congr 1
  · refine List.filter_congr fun y hy => ?_
    have := hx y hy
    have h2 : y.sys.num ≠ x.sys.num := by omega
    simp [h2]
  · simp [hm]

theorem keyFramesFrom_own {P : Policy} {xs : List (FrameIn G)} {x : FrameIn G}
    (hk : (book P ((xs ++ [x]).map (·.sys.num))).keyFrames = (book P (xs.map (·.sys.num))).keyFrames ++ [x.sys.num])
    (hx : ∀ y ∈ xs, y.sys.num < x.sys.num) : keyFramesFrom P x.sys.num (xs ++ [x]) = [x] := by
  rw [keyFramesFrom_more hk hx (le_refl _)]
  have : keyFramesFrom P x.sys.num xs = [] := by
    unfold keyFramesFrom
    rw [List.filter_eq_nil_iff]
    intro y hy
    have := hx y hy
    simp; omega
  rw [this]
  rfl

theorem became_same {p : Params} {xs : List (FrameIn G)} {x : FrameIn G} {n : Int} {ip : Act.Immature} {op : Act.Optimized}
    (hk : (book (Dso.policyOf p.set) ((xs ++ [x]).map (·.sys.num))).keyFrames = (book (Dso.policyOf p.set) (xs.map (·.sys.num))).keyFrames)
    (hx : x.sys.num ∉ (book (Dso.policyOf p.set) (xs.map (·.sys.num))).keyFrames) (h : Became p xs n ip op) : Became p (xs ++ [x]) n ip op := by
  obtain ⟨ys, y, zs, e1, e2, now, e3, e4, e5, e6⟩ := h
  refine ⟨ys, y, zs ++ [x], by rw [e1]; simp, by rw [hk]; exact e2, now, e3, e4, e5, ?_⟩
  rw [keyFramesFrom_same hk hx]
  exact e6

/-- What bundle adjustment at a keyframe does to an optimized point. -/
def adjusted1 (p : Params) (x : FrameIn G) (n : Int) (op : Act.Optimized) : Act.Optimized := if p.set.runBA then adjustPoint (x.ba n) op else op

theorem adjustedThrough_snoc (p : Params) (n : Int) (fs : List (FrameIn G)) (x : FrameIn G) (op : Act.Optimized) :
    adjustedThrough p.set.runBA n (fs ++ [x]) op = adjusted1 p x n (adjustedThrough p.set.runBA n fs op) := by
  unfold adjusted1
  cases p.set.runBA with
  | true => exact adjustedThrough_snoc_on n fs x op
  | false => simp [adjustedThrough]

theorem became_more {p : Params} {xs : List (FrameIn G)} {x : FrameIn G} {n : Int} {ip : Act.Immature} {op : Act.Optimized}
    (hk : (book (Dso.policyOf p.set) ((xs ++ [x]).map (·.sys.num))).keyFrames = (book (Dso.policyOf p.set) (xs.map (·.sys.num))).keyFrames ++ [x.sys.num])
    (hx : ∀ y ∈ xs, y.sys.num < x.sys.num) (h : Became p xs n ip op) : Became p (xs ++ [x]) n ip (adjusted1 p x n op) := by
  obtain ⟨ys, y, zs, e1, e2, now, e3, e4, e5, e6⟩ := h
  refine ⟨ys, y, zs ++ [x], by rw [e1]; simp, ?_, now, e3, e4, e5, ?_⟩
  · rw [hk, List.drop_append]
    simp [e2]
  · rw [keyFramesFrom_more hk hx (by have := hx y (by rw [e1]; simp); omega), adjustedThrough_snoc, ← e6]

theorem became_now {p : Params} {xs : List (FrameIn G)} {x : FrameIn G} {n : Int} {ip now : Act.Immature}
    (hk : (book (Dso.policyOf p.set) ((xs ++ [x]).map (·.sys.num))).keyFrames = (book (Dso.policyOf p.set) (xs.map (·.sys.num))).keyFrames ++ [x.sys.num])
    (hx : ∀ y ∈ xs, y.sys.num < x.sys.num) (h2 : 2 ≤ (book (Dso.policyOf p.set) (xs.map (·.sys.num))).keyFrames.length)
    (hnow : now = tracedThrough n (framesAfter (Dso.policyOf p.set).skip n (xs ++ [x])) ip) (hr : now.state = .active ∧ now.stddev < x.env.optimizedStddev) :
    Became p (xs ++ [x]) n ip (adjusted1 p x n (Act.Optimized.ofImmature now)) := by
  refine ⟨xs, x, [], rfl, ?_, now, hnow, hr.1, hr.2, ?_⟩
  · rw [hk, List.drop_append_of_le_length h2]
    simp
  · rw [keyFramesFrom_own hk hx, ← List.nil_append [x], adjustedThrough_snoc]
    simp [adjustedThrough, Act.Optimized.ofImmature]

/-! ## The stages of a call -/

/-- Tracing. -/
theorem explained_trace {p : Params} {xs ys : List (FrameIn G)} {x : FrameIn G} {e : Entry} (hl : (Dso.policyOf p.set).skip + 2 ≤ xs.length) (hn : e.1 < x.sys.num)
    (h : Explained p xs ys e.1 e.2) :
    Explained p (xs ++ [x]) ys e.1 { e.2 with immature := e.2.immature.map (traceOn (x.trace e.1)) } := by
  obtain ⟨act, cand, h1, h2, h3⟩ := h
  refine ⟨act, cand, h1, ?_, h3⟩
  rw [framesAfter_snoc hl hn]
  have := h2.map (traceOn (x.trace e.1))
  rw [List.map_map] at this
  refine this.trans (List.Perm.of_eq (List.map_congr_left fun ip _ => ?_))
  rw [tracedThrough_snoc]
  rfl

theorem explained_same {p : Params} {xs ys : List (FrameIn G)} {x : FrameIn G} {n : Int} {kf : Act.KeyFrame}
    (hk : (book (Dso.policyOf p.set) ((ys ++ [x]).map (·.sys.num))).keyFrames = (book (Dso.policyOf p.set) (ys.map (·.sys.num))).keyFrames)
    (hx : x.sys.num ∉ (book (Dso.policyOf p.set) (ys.map (·.sys.num))).keyFrames) (h : Explained p xs ys n kf) : Explained p xs (ys ++ [x]) n kf := by
  obtain ⟨act, cand, h1, h2, h3⟩ := h
  exact ⟨act, cand, h1, h2, h3.imp fun _ _ h => became_same hk hx h⟩

/-- A permutation of an image comes from one of the list. -/
theorem perm_map {α β : Type} (f : α → β) : ∀ (b : List β) {l : List α}, b.Perm (l.map f) → ∃ l' : List α, l'.Perm l ∧ l'.map f = b
  | [], l, h => by
    have := h.symm.eq_nil
    simp only [List.map_eq_nil_iff] at this
    exact ⟨[], by simp [this], rfl⟩
  | c :: cs, l, h => by
    have hm : c ∈ l.map f := h.subset (by simp)
    obtain ⟨x, hx, rfl⟩ := List.mem_map.1 hm
    obtain ⟨l1, l2, rfl⟩ := List.append_of_mem hx
    have h2 : cs.Perm ((l1 ++ l2).map f) := by
      rw [List.map_append, List.map_cons] at h
      rw [List.map_append]
      exact (h.trans List.perm_middle).cons_inv
    obtain ⟨l', g1, g2⟩ := perm_map f cs h2
    exact ⟨x :: l', (g1.cons x).trans List.perm_middle.symm, by simp [g2]⟩

theorem perm_map_split {α β : Type} (f : α → β) {l : List α} {a b : List β} (h : (a ++ b).Perm (l.map f)) :
    ∃ a' b' : List α, (a' ++ b').Perm l ∧ a'.map f = a ∧ b'.map f = b := by
  obtain ⟨l', h1, h2⟩ := perm_map f _ h
  obtain ⟨a', b', rfl, h3, h4⟩ := List.map_eq_append_iff.1 h2
  exact ⟨a', b', h1, h3, h4⟩

/-- Activation and bundle adjustment at a keyframe. -/
theorem explained_keyFrame {p : Params} {xs : List (FrameIn G)} {x : FrameIn G} {n : Int} {kf kf' : Act.KeyFrame} {act : List Act.Immature}
    (hk : (book (Dso.policyOf p.set) ((xs ++ [x]).map (·.sys.num))).keyFrames = (book (Dso.policyOf p.set) (xs.map (·.sys.num))).keyFrames ++ [x.sys.num])
    (hx : ∀ y ∈ xs, y.sys.num < x.sys.num) (h2 : 2 ≤ (book (Dso.policyOf p.set) (xs.map (·.sys.num))).keyFrames.length)
    (h : Explained p (xs ++ [x]) xs n kf) (g1 : (act ++ kf'.immature).Perm kf.immature) (g2 : kf'.optimized = kf.optimized ++ act.map Act.Optimized.ofImmature)
    (g3 : ∀ ip ∈ act, ip.state = .active ∧ ip.stddev < x.env.optimizedStddev) :
    Explained p (xs ++ [x]) (xs ++ [x]) n { kf' with optimized := kf'.optimized.map (adjusted1 p x n) } := by
  obtain ⟨old, cand, e1, e2, e3⟩ := h
  obtain ⟨a', b', f1, f2, f3⟩ := perm_map_split _ (g1.trans e2)
  refine ⟨old ++ a', b', ?_, ?_, ?_⟩
  · rw [List.append_assoc]
    exact (f1.append_left old).trans e1
  · exact List.Perm.of_eq f3.symm
  · rw [g2, List.map_append]
    refine List.rel_append ?_ ?_
    · rw [List.forall₂_map_right_iff]
      exact e3.imp fun _ _ h => became_more hk hx h
    · rw [List.map_map, ← f2, List.map_map, List.forall₂_map_right_iff, List.forall₂_same]
      intro ip hip
      exact became_now hk hx h2 rfl (g3 _ (by rw [← f2]; exact List.mem_map_of_mem hip))

/-! ## Activation, with the readiness of the points taken -/

/-- What activation does to one keyframe of the window. -/
def Taken (thr : ℝ) (e e' : Entry) : Prop :=
  e'.1 = e.1 ∧ ∃ act, (act ++ e'.2.immature).Perm e.2.immature ∧ e'.2.optimized = e.2.optimized ++ act.map Act.Optimized.ofImmature ∧
    ∀ ip ∈ act, ip.state = .active ∧ ip.stddev < thr

theorem act_ready {nth : List (Nat × Int) → Nat → List (Nat × Int)} (hn : DistMap.IsNthElement nth)
    {sort : List Nat → (Nat → Nat) → List Nat} (hs : Act.IsSort sort) {fuel : Nat} {e : Act.Env} {maxOpt : Int} {kfs kfs' : List Act.KeyFrame}
    (h : Act.activate nth sort fuel e maxOpt kfs = .ok (some kfs')) :
    kfs'.length = kfs.length ∧ ∀ (k : Nat) kf, kfs[k]? = some kf → ∃ kf' act, kfs'[k]? = some kf' ∧
      (act ++ kf'.immature).Perm kf.immature ∧ kf'.optimized = kf.optimized ++ act.map Act.Optimized.ofImmature ∧
      ∀ ip ∈ act, ip.state = .active ∧ ip.stddev < e.optimizedStddev := by
  have h' := h
  unfold Act.activate at h'
  cases hm : DistMap.build e.width e.height ⟨480, 302⟩ (Act.optPoints e 0 kfs) fuel with
  | error er => rw [hm] at h'; simp only [Act.activateWith] at h'; cases h'
  | ok o =>
    cases o with
    | none => rw [hm] at h'; simp only [Act.activateWith] at h'; cases h'
    | some m =>
      rw [hm] at h'
      simp only [Act.activateWith] at h'
      cases hc : DistMap.choose nth m ((Act.candidates e 0 kfs).map Prod.fst) (maxOpt - Act.curOptPoints kfs) with
      | error er => rw [hc] at h'; cases h'
      | ok chosen =>
        obtain ⟨kfs'', b1, b2, -, b4⟩ := Act.C19_activation nth hn sort hs fuel e maxOpt kfs m hm chosen hc
        rw [h] at b1
        cases b1
        refine ⟨b2, fun k kf hk => ?_⟩
        obtain ⟨kf', act, -, g1, g2, g3, g4, -⟩ := b4 k kf hk
        exact ⟨kf', act, g1, g2, g3, g4⟩

theorem taken_zip (thr : ℝ) (w : List Entry) (kfs : List Act.KeyFrame) (hlen : kfs.length = (w.map Prod.snd).length)
    (h : ∀ (k : Nat) kf, (w.map Prod.snd)[k]? = some kf → ∃ kf' act, kfs[k]? = some kf' ∧
      (act ++ kf'.immature).Perm kf.immature ∧ kf'.optimized = kf.optimized ++ act.map Act.Optimized.ofImmature ∧
      ∀ ip ∈ act, ip.state = .active ∧ ip.stddev < thr) :
    List.Forall₂ (Taken thr) w ((w.map Prod.fst).zip kfs) := by
  induction w generalizing kfs with
  | nil => simp at hlen; subst hlen; exact .nil
  | cons e w ih =>
    cases kfs with
    | nil => simp at hlen
    | cons kf kfs =>
      obtain ⟨kf', act, g1, g2, g3, g4⟩ := h 0 e.2 rfl
      simp only [List.getElem?_cons_zero, Option.some.injEq] at g1
      subst g1
      exact .cons ⟨rfl, act, g2, g3, g4⟩ (ih kfs (by simpa using hlen) (fun k kf hk => by simpa using h (k + 1) kf (by simpa using hk)))

theorem activate_taken {p : Params} (hn : DistMap.IsNthElement p.nth) (hs : Act.IsSort p.sort) {x : FrameIn G} {w w' : List Entry}
    (h : activate p x w = .ok (some w')) : List.Forall₂ (Taken x.env.optimizedStddev) w w' := by
  cases hb : Dso.baseIndex p.set w.length with
  | none =>
    unfold activate at h
    simp only [hb] at h
    cases h
  | some i =>
    rw [activate_eq hb] at h
    obtain ⟨kfs, h1, rfl⟩ := withNumbers_some h
    obtain ⟨f1, f2⟩ := act_ready hn hs h1
    exact taken_zip _ w kfs f1 f2

theorem adjust_mem {p : Params} {x : FrameIn G} {w : List Entry} {e : Entry} (h : e ∈ adjust p x w) :
    ∃ e' ∈ w, e = (e'.1, { e'.2 with optimized := e'.2.optimized.map (adjusted1 p x e'.1) }) := by
  unfold adjust at h
  cases hb : p.set.runBA with
  | true =>
    rw [if_pos hb] at h
    obtain ⟨e', h1, rfl⟩ := List.mem_map.1 h
    refine ⟨e', h1, ?_⟩
    have : adjusted1 p x e'.1 = adjustPoint (x.ba e'.1) := by funext op; simp [adjusted1, hb]
    rw [this]
  | false =>
    rw [if_neg (by simp [hb])] at h
    refine ⟨e, h, ?_⟩
    have : adjusted1 p x e.1 = id := by funext op; simp [adjusted1, hb]
    rw [this]
    simp

theorem forall₂_mem_right {α : Type} {R : α → α → Prop} {a b : List α} (h : List.Forall₂ R a b) : ∀ e ∈ b, ∃ e' ∈ a, R e' e := by
  induction h with
  | nil => intro e he; cases he
  | cons h _ ih =>
    intro e he
    rcases List.mem_cons.1 he with rfl | he
    · exact ⟨_, by simp, h⟩
    · obtain ⟨e', h1, h2⟩ := ih e he
      exact ⟨e', by simp [h1], h2⟩

/-! ## Whole histories -/

structure HInv [Group G] (p : Params) (s : State G) (xs : List (FrameIn G)) : Prop where
  inv : Inv p s (xs.map (·.sys.num))
  window : ∀ e ∈ s.window, Explained p xs xs e.1 e.2
  handed : ∀ e ∈ s.handed, HandedOver p xs e.1 e.2

theorem handedOver_snoc {p : Params} {xs : List (FrameIn G)} {x : FrameIn G} {n : Int} {kf : Act.KeyFrame} (h : HandedOver p xs n kf) :
    HandedOver p (xs ++ [x]) n kf := by
  obtain ⟨ys, y, zs, e1, e2⟩ := h
  exact ⟨ys, y, zs ++ [x], by rw [e1]; simp, e2⟩

theorem explained_new {p : Params} {xs : List (FrameIn G)} {n : Int} (ys : List (FrameIn G)) (h : framesAfter (Dso.policyOf p.set).skip n xs = []) :
    Explained p xs ys n ⟨p.made n, []⟩ := by
  refine ⟨[], p.made n, by simp, ?_, .nil⟩
  rw [h]
  exact List.Perm.of_eq (by simp [show tracedThrough n ([] : List (FrameIn G)) = id from funext fun _ => rfl])

theorem window_old [Group G] {p : Params} {s : State G} {ns : List Int} (hi : Inv p s ns) {e : Entry} (he : e ∈ s.window) :
    e.1 ∈ (book (Dso.policyOf p.set) ns).keyFrames := by
  rw [← hi.nums]
  exact List.mem_map_of_mem (by simp [everMade, he])

theorem long_of_book {P : Policy} {ns : List Int} (h : book P ns ≠ []) : P.skip + 2 ≤ ns.length := by
  by_contra hc
  exact h (book_lt (by omega))

theorem hstep [Group G] {p : Params} (hv : Dso.Valid p.set) (h0 : 0 ≤ p.maxOptimizedPoints) (hn : DistMap.IsNthElement p.nth) (hs : Act.IsSort p.sort)
    {s s' : State G} {xs : List (FrameIn G)} (hi : HInv p s xs) {x : FrameIn G} (ha : Acceptable (xs.map (·.sys.num)) x.sys.num) (hm : x.sys.num < Dso.intMax)
    (h : addFrame p s x = .ok (some s')) : HInv p s' (xs ++ [x]) := by
  have hinv := (step hv h0 hn hs hi.inv ha hm h).1
  have hmap : (xs ++ [x]).map (·.sys.num) = xs.map (·.sys.num) ++ [x.sys.num] := by simp
  rw [← hmap] at hinv
  have hlt : ∀ y ∈ xs, y.sys.num < x.sys.num := fun y hy => ha.2 _ (List.mem_map_of_mem (f := fun y : FrameIn G => y.sys.num) hy)
  have hxk : x.sys.num ∉ (book (Dso.policyOf p.set) (xs.map (·.sys.num))).keyFrames := by
    intro hc
    have := ha.2 _ (mem_frames (mem_keyFrames_frames hc))
    omega
  have hwlt : ∀ e ∈ s.window, e.1 < x.sys.num := fun e he => ha.2 _ (mem_frames (mem_keyFrames_frames (window_old hi.inv he)))
  have hwl : s.window ≠ [] → (Dso.policyOf p.set).skip + 2 ≤ xs.length := by
    intro hne
    have := long_of_book (P := Dso.policyOf p.set) (ns := xs.map (·.sys.num)) (by
      intro hc
      have := hi.inv.wlen
      rw [hc] at this
      simp at this
      exact hne this)
    simpa using this
  have htr : ∀ e ∈ traceAll x s.window, Explained p (xs ++ [x]) xs e.1 e.2 := by
    intro e he
    obtain ⟨e', he', rfl⟩ := List.mem_map.1 he
    exact explained_trace (e := e') (hwl (by intro hc; rw [hc] at he'; cases he')) (hwlt e' he') (hi.window e' he')
  obtain ⟨sys', hsys, hc⟩ := addFrame_cases hv hi.inv ha hm
  rcases hc with ⟨e, b1, b2⟩ | ⟨f, hf, e, b1, b2⟩ | ⟨e, b1⟩ | ⟨e, hw2, b1⟩
  · rw [e] at h
    cases h
    have hw : s.window = [] := by
      have := hi.inv.wlen
      rw [b2] at this
      simpa using this
    refine ⟨hinv, fun e he => ?_, fun e he => handedOver_snoc (hi.handed e he)⟩
    have he' : e ∈ s.window := he
    rw [hw] at he'
    cases he'
  · rw [e] at h
    cases h
    have hlen : xs.length + 1 ≤ (Dso.policyOf p.set).skip + 2 := by
      by_contra hc
      have := book_length (p := Dso.policyOf p.set) (ns := xs.map (·.sys.num)) (by simp; omega)
      rw [b2] at this
      simp at this
    have hnil : ∀ n, framesAfter (Dso.policyOf p.set).skip n (xs ++ [x]) = [] := by
      intro n
      unfold framesAfter
      rw [List.drop_eq_nil_of_le (by simp; omega)]
      rfl
    refine ⟨hinv, fun e he => ?_, fun e he => handedOver_snoc (hi.handed e he)⟩
    simp only [List.mem_cons, List.not_mem_nil, or_false] at he
    rcases he with rfl | rfl <;> exact explained_new _ (hnil _)
  · rw [e] at h
    cases h
    rw [← hmap] at b1
    exact ⟨hinv, fun e he => explained_same b1 hxk (htr e he), fun e he => handedOver_snoc (hi.handed e he)⟩
  · rw [e] at h
    unfold addKeyFrame at h
    dsimp only at h
    obtain ⟨w, hw, rfl⟩ := afterActivation_some h
    have htk := activate_taken hn hs hw
    have hk : (book (Dso.policyOf p.set) ((xs ++ [x]).map (·.sys.num))).keyFrames = (book (Dso.policyOf p.set) (xs.map (·.sys.num))).keyFrames ++ [x.sys.num] := by
      rw [hmap, b1]; simp [Book.keyFrames]
    have hk2 : 2 ≤ (book (Dso.policyOf p.set) (xs.map (·.sys.num))).keyFrames.length := by
      have := hi.inv.wlen
      simp only [Book.keyFrames, List.length_map]
      omega
    have hlt2 : ∀ k ∈ traceAll x s.window, k.1 < x.sys.num := by
      intro k hk
      obtain ⟨k', hk', rfl⟩ := List.mem_map.1 hk
      exact hwlt k' hk'
    have hins := insert_last (newKeyFrame p x.sys.num) (traceAll x s.window) hlt2
    rw [hins] at htk
    rw [hins] at h hw hinv ⊢
    have hall : ∀ e ∈ traceAll x s.window ++ [newKeyFrame p x.sys.num], Explained p (xs ++ [x]) xs e.1 e.2 := by
      intro e he
      rcases List.mem_append.1 he with he | he
      · exact htr e he
      · simp only [List.mem_cons, List.not_mem_nil, or_false] at he
        subst he
        exact explained_new _ (framesAfter_own hlt)
    obtain ⟨r, hr⟩ : ∃ r, r = marginalize p.set (traceAll x s.window ++ [newKeyFrame p x.sys.num]) := ⟨_, rfl⟩
    have hr1 := marginalize_append p.set (traceAll x s.window ++ [newKeyFrame p x.sys.num])
    have hr2 := marginalize_length (set := p.set) (by have := hv.window; omega) (traceAll x s.window ++ [newKeyFrame p x.sys.num])
    rw [← hr] at hr1 hr2 htk hw hinv ⊢
    refine ⟨hinv, ?_, ?_⟩
    · intro e he
      obtain ⟨e1, he1, rfl⟩ := adjust_mem (show e ∈ adjust p x w from he)
      obtain ⟨e0, he0, t1, act, t2, t3, t4⟩ := forall₂_mem_right htk e1 he1
      have h3 := hall e0 (by rw [← hr1]; simp [he0])
      rw [← t1] at h3
      exact explained_keyFrame hk hlt hk2 h3 t2 t3 t4
    · intro e he
      rcases List.mem_append.1 (show e ∈ s.handed ++ r.1 from he) with he | he
      · exact handedOver_snoc (hi.handed e he)
      · have hne : r.1.length = 1 ∧ (r.2.length : Int) = p.set.maxKeyFrames := by
          have e1 := congrArg List.length hr1
          simp only [List.length_append, List.length_cons, List.length_nil] at e1 hr2
          have e2 : (traceAll x s.window).length = s.window.length := by simp [traceAll]
          have e3 := hi.inv.wlen
          have e4 : 0 < r.1.length := List.length_pos_of_mem he
          have e5 := hv.window
          omega
        obtain ⟨a, hra⟩ := List.length_eq_one_iff.1 hne.1
        have hea : e = a := by rw [hra] at he; simpa using he
        have hnums : (book (Dso.policyOf p.set) ((xs ++ [x]).map (·.sys.num))).keyFrames = s.handed.map Prod.fst ++ e.1 :: r.2.map Prod.fst := by
          rw [hk, ← hi.inv.nums]
          have e1 : (s.handed ++ traceAll x s.window ++ [newKeyFrame p x.sys.num]).map Prod.fst = (everMade s).map Prod.fst ++ [x.sys.num] := by
            simp [everMade, newKeyFrame, traceAll, Function.comp_def]
          rw [← e1, List.append_assoc, ← hr1, hra, hea]
          simp
        have hsorted := keyFrames_sorted (p := Dso.policyOf p.set) hinv.sys.sorted
        have hcount : ((book (Dso.policyOf p.set) ((xs ++ [x]).map (·.sys.num))).keyFrames.filter fun m => e.1 < m).length = r.2.length := by
          rw [hnums] at hsorted ⊢
          obtain ⟨-, q2, q3⟩ := List.pairwise_append.1 hsorted
          rw [List.filter_append, List.filter_cons]
          have z1 : (s.handed.map Prod.fst).filter (fun m => decide (e.1 < m)) = [] := by
            rw [List.filter_eq_nil_iff]
            intro m hm
            have := q3 m hm e.1 (by simp)
            simp; omega
          have z2 : (r.2.map Prod.fst).filter (fun m => decide (e.1 < m)) = r.2.map Prod.fst := by
            rw [List.filter_eq_self]
            intro m hm
            simpa using (List.pairwise_cons.1 q2).1 m hm
          rw [z1, z2]
          simp
        have hnx : e.1 < x.sys.num := by
          have : e.1 ∈ (traceAll x s.window ++ [newKeyFrame p x.sys.num]).map Prod.fst := by
            rw [← hr1]; simp only [List.map_append, List.mem_append]; left; exact List.mem_map_of_mem he
          rcases List.mem_append.1 (by simpa only [List.map_append] using this) with h' | h'
          · obtain ⟨k, hk, hke⟩ := List.mem_map.1 h'
            rw [← hke]; exact hlt2 k hk
          · exfalso
            have e6 : e.1 = x.sys.num := by simpa [newKeyFrame] using h'
            have e7 : r.2 ≠ [] := by
              intro hc
              have := hne.2
              rw [hc] at this
              have := hv.window
              simp at *
              omega
            obtain ⟨k, l, hkl⟩ := List.exists_cons_of_ne_nil e7
            rw [hnums, hkl] at hsorted
            have q := (List.pairwise_append.1 hsorted).2.1
            have q1 := (List.pairwise_cons.1 q).1 k.1 (by simp)
            have q2 : k.1 ∈ (traceAll x s.window ++ [newKeyFrame p x.sys.num]).map Prod.fst := by
              rw [← hr1, hkl]; simp
            rcases List.mem_append.1 (by simpa only [List.map_append] using q2) with h' | h'
            · obtain ⟨k', hk', hke⟩ := List.mem_map.1 h'
              have := hlt2 k' hk'
              omega
            · have : k.1 = x.sys.num := by simpa [newKeyFrame] using h'
              omega
        refine ⟨xs, x, [], rfl, by rw [hcount]; exact hne.2, ?_, hall e (by rw [← hr1]; simp [he])⟩
        have e8 := hcount
        rw [hk, List.filter_append, List.length_append] at e8
        simp only [List.filter_cons, hnx, decide_true, if_true, List.filter_nil, List.length_cons, List.length_nil] at e8
        have := hne.2
        omega

theorem hrun [Group G] {p : Params} (hv : Dso.Valid p.set) (h0 : 0 ≤ p.maxOptimizedPoints) (hn : DistMap.IsNthElement p.nth) (hs : Act.IsSort p.sort) :
    ∀ (ys : List (FrameIn G)) {s s' : State G} {xs : List (FrameIn G)}, HInv p s xs → ((xs ++ ys).map (·.sys.num)).Pairwise (· < ·) →
      (∀ y ∈ ys, 0 < y.sys.num ∧ y.sys.num < Dso.intMax) → run p s ys = .ok (some s') → HInv p s' (xs ++ ys) := by
  intro ys
  induction ys with
  | nil =>
    intro s s' xs hi _ _ h
    rw [run] at h
    injection h with h
    injection h with h
    subst h
    simpa using hi
  | cons y ys ih =>
    intro s s' xs hi hp hb h
    rw [run] at h
    obtain ⟨s1, e1, e2⟩ := andThen_some h
    have hp1 := hp
    rw [List.map_append] at hp1
    have hacc : Acceptable (xs.map (·.sys.num)) y.sys.num :=
      ⟨(hb y (by simp)).1, fun m hm => (List.pairwise_append.1 hp1).2.2 m hm y.sys.num (by simp)⟩
    have i1 := hstep hv h0 hn hs hi hacc (hb y (by simp)).2 e1
    have := ih i1 (by simpa using hp) (fun z hz => hb z (by simp [hz])) e2
    simpa using this

/-- **C173.** After any number of frames, the points of every keyframe are the ones it was made with. In a keyframe that is still held, a candidate has the estimates that
come from looking for it once in every frame since the keyframe was made and the system was initialized, in their order; an optimized point was ready at some later keyframe
with the estimates from all frames up to it, and bundle adjustment has worked on it once at that keyframe and at every one since. A keyframe that was handed over has the
points it had when `maxKeyFrames` newer ones were there for the first time. -/
theorem C173_estimates [Group G] {p : Params} (hv : Dso.Valid p.set) (h0 : 0 ≤ p.maxOptimizedPoints) (hn : DistMap.IsNthElement p.nth)
    (hs : Act.IsSort p.sort) {s0 s : State G} (hc : create p.set = .ok s0) {xs : List (FrameIn G)} (hl : Dso.Legal (xs.map (·.sys.num)))
    (h : run p s0 xs = .ok (some s)) :
    (∀ e ∈ s.window, Explained p xs xs e.1 e.2) ∧ ∀ e ∈ s.handed, HandedOver p xs e.1 e.2 := by
  have hi0 : HInv p s0 [] := by
    have h1 := inv_create h0 hc
    have h2 : everMade s0 = [] := by
      have := h1.nums
      simpa [book, Book.keyFrames] using this
    obtain ⟨h3, h4⟩ : s0.handed = [] ∧ s0.window = [] := by simpa [everMade] using h2
    exact ⟨h1, by simp [h4], by simp [h3]⟩
  have := hrun hv h0 hn hs xs hi0 (by simpa using hl.1) (fun y hy => hl.2 _ (List.mem_map_of_mem (f := fun x : FrameIn G => x.sys.num) hy)) h
  exact ⟨by simpa using this.window, by simpa using this.handed⟩

/-! ## Non-vacuity -/

/-- In the session of seven frames with the keyframes 1, 3, 5 and 7, the candidates of keyframes 1 and 3 are looked for in the frames from 4 on, those of 5 in 6 and 7, and those of 7 not yet;
from keyframe 5 on, bundle adjustment works at 5 and at 7. -/
example : (framesAfter 1 1 (exFrames [1, 2, 3, 4, 5, 6, 7])).map (·.sys.num) = [4, 5, 6, 7] ∧
    (framesAfter 1 3 (exFrames [1, 2, 3, 4, 5, 6, 7])).map (·.sys.num) = [4, 5, 6, 7] ∧
    (framesAfter 1 5 (exFrames [1, 2, 3, 4, 5, 6, 7])).map (·.sys.num) = [6, 7] ∧ framesAfter 1 7 (exFrames [1, 2, 3, 4, 5, 6, 7]) = [] ∧
    (keyFramesFrom (Dso.policyOf Dso.exSettings) 5 (exFrames [1, 2, 3, 4, 5, 6, 7])).map (·.sys.num) = [5, 7] := by
  have hf : ∀ (n : Int) (l : List Int), (framesAfter 1 n (exFrames l)).map (·.sys.num) = (l.drop 3).filter fun m => n < m := by
    intro n l
    unfold framesAfter exFrames Dso.exCalls
    simp only [List.map_map, ← List.map_drop, List.filter_map, Function.comp_def]
    simp
  refine ⟨by rw [hf]; decide, by rw [hf]; decide, by rw [hf]; decide, ?_, ?_⟩
  · have := hf 7 [1, 2, 3, 4, 5, 6, 7]
    simpa using this
  · unfold keyFramesFrom
    rw [exNums]
    unfold exFrames Dso.exCalls
    simp only [List.map_map, List.filter_map, Function.comp_def]
    rw [show (book (Dso.policyOf Dso.exSettings) [1, 2, 3, 4, 5, 6, 7]).keyFrames = [1, 3, 5, 7] from by decide]
    simp

/-- That session runs to its end, and the points of its four keyframes, two held and two handed over, are explained. -/
example : ∃ xs : List (FrameIn (Multiplicative Int)), xs.map (·.sys.num) = [1, 2, 3, 4, 5, 6, 7] ∧ ∃ s, run exParams ⟨Dso.exState, [], []⟩ xs = .ok (some s) ∧
    s.window.length = 2 ∧ s.handed.length = 2 ∧ (∀ e ∈ s.window, Explained exParams xs xs e.1 e.2) ∧ ∀ e ∈ s.handed, HandedOver exParams xs e.1 e.2 := by
  have hs : Act.IsSort exParams.sort := Act.mergeSort_isSort
  have hn : DistMap.IsNthElement exParams.nth := DistMap.sort_isNth
  obtain ⟨fuels, hf, s, h⟩ := C169_runs (p := exParams) Dso.exValid (by decide) hn hs exCreated exLegal fun x hx => ⟨2, exFits x hx⟩
  obtain ⟨xs, hxs⟩ : ∃ xs, xs = List.zipWith FrameIn.withFuel (exFrames [1, 2, 3, 4, 5, 6, 7]) fuels := ⟨_, rfl⟩
  have hnum : xs.map (·.sys.num) = [1, 2, 3, 4, 5, 6, 7] := by
    rw [hxs, nums_withFuel _ _ hf, exNums]
  rw [← hxs] at h
  have hl : Dso.Legal (xs.map (·.sys.num)) := by rw [hnum]; exact ⟨by decide, by decide⟩
  obtain ⟨c1, -, -, c4, -, -⟩ := C169_points (p := exParams) Dso.exValid (by decide) hn hs exCreated hl h
  rw [hnum] at c1
  have c1' : (everMade s).map Prod.fst = [1, 3, 5, 7] := by rw [c1]; decide
  have hlen : (everMade s).length = 4 := by simpa using congrArg List.length c1'
  have hw : s.window.length = 2 := by
    rw [c4, hlen]; rfl
  refine ⟨xs, hnum, s, h, hw, ?_, C173_estimates (p := exParams) Dso.exValid (by decide) hn hs exCreated hl h⟩
  simp only [everMade, List.length_append] at hlen
  omega

end Mdso.Life
