import Verif.Spec.PointLife
import Verif.Lemmas.DsoSystem
import Verif.Props.DsoSystem
import Verif.Props.Activation

/-!
# The points of a running system: C169
-/

set_option autoImplicit false

namespace Mdso.Life
open Mdso.FrameSpec

variable {G : Type}

/-! ## What one stage does to a keyframe -/

theorem Later.refl (a : Act.Optimized) : Later a a := ⟨rfl, rfl, id⟩

theorem Later.trans {a b c : Act.Optimized} (h : Later a b) (h' : Later b c) : Later a c :=
  ⟨h'.1.trans h.1, h'.2.1.trans h.2.1, fun hc => h.2.2 (h'.2.2 hc)⟩

theorem forall₂_refl {α : Type} {R : α → α → Prop} (hr : ∀ a, R a a) (l : List α) : List.Forall₂ R l l :=
  List.forall₂_same.2 fun a _ => hr a

theorem forall₂_trans {α : Type} {R : α → α → Prop} (ht : ∀ a b c, R a b → R b c → R a c) {l₁ l₂ l₃ : List α}
    (h : List.Forall₂ R l₁ l₂) (h' : List.Forall₂ R l₂ l₃) : List.Forall₂ R l₁ l₃ := by
  induction h generalizing l₃ with
  | nil => cases h'; exact .nil
  | cons h _ ih =>
    cases h' with
    | cons h1 h2 => exact .cons (ht _ _ _ h h1) (ih h2)

theorem Grown.refl (a : List Act.Optimized) : Grown a a := ⟨a, [], by simp, forall₂_refl Later.refl a⟩

theorem Grown.trans {a b c : List Act.Optimized} (h : Grown a b) (h' : Grown b c) : Grown a c := by
  obtain ⟨l1, l2, rfl, h1⟩ := h
  obtain ⟨m1, m2, rfl, h2⟩ := h'
  have ht : List.Forall₂ Later l1 (m1.take l1.length) := by
    have := List.forall₂_take l1.length h2
    rwa [List.take_left] at this
  refine ⟨m1.take l1.length, m1.drop l1.length ++ m2, by rw [← List.append_assoc, List.take_append_drop], ?_⟩
  exact forall₂_trans (R := Later) (fun _ _ _ h h' => Later.trans h h') h1 ht

/-- A keyframe before and after: same number, same places, and its optimized points stay. -/
def Stage (e e' : Entry) : Prop := e'.1 = e.1 ∧ (places e'.2).Perm (places e.2) ∧ Grown e.2.optimized e'.2.optimized

theorem Stage.refl (e : Entry) : Stage e e := ⟨rfl, .refl _, Grown.refl _⟩

theorem Stage.trans {a b c : Entry} (h : Stage a b) (h' : Stage b c) : Stage a c :=
  ⟨h'.1.trans h.1, h'.2.1.trans h.2.1, h.2.2.trans h'.2.2⟩

theorem forall₂_map_right {α : Type} {R : α → α → Prop} {f : α → α} (h : ∀ a, R a (f a)) (l : List α) : List.Forall₂ R l (l.map f) := by
  induction l with
  | nil => exact .nil
  | cons a l ih => exact .cons (h a) ih

theorem stage_trace (x : FrameIn G) (w : List Entry) : List.Forall₂ Stage w (traceAll x w) := by
  refine forall₂_map_right (fun e => ⟨rfl, ?_, Grown.refl _⟩) w
  refine List.Perm.append (List.Perm.refl _) ?_
  rw [List.map_map]
  exact List.Perm.of_eq (List.map_congr_left fun ip _ => rfl)

theorem later_adjust (r : Act.Optimized → ℝ × Mark) (op : Act.Optimized) : Later op (adjustPoint r op) := by
  refine ⟨rfl, rfl, ?_⟩
  unfold adjustPoint
  intro h
  by_cases ho : op.state = .oob
  · simp [ho] at h
  · cases hm : (r op).2 <;> simp [ho, hm] at h
    exact h

theorem stage_adjust (p : Params) (x : FrameIn G) (w : List Entry) : List.Forall₂ Stage w (adjust p x w) := by
  unfold adjust
  split
  · refine forall₂_map_right (fun e => ⟨rfl, ?_, ?_⟩) w
    · refine List.Perm.append ?_ (List.Perm.refl _)
      rw [List.map_map]
      exact List.Perm.of_eq (List.map_congr_left fun op _ => rfl)
    · exact ⟨e.2.optimized.map (adjustPoint (x.ba e.1)), [], (List.append_nil _).symm, forall₂_map_right (later_adjust _) _⟩
  · exact forall₂_refl Stage.refl w

theorem act_facts {nth : List (Nat × Int) → Nat → List (Nat × Int)} (hn : DistMap.IsNthElement nth)
    {sort : List Nat → (Nat → Nat) → List Nat} (hs : Act.IsSort sort) {fuel : Nat} {e : Act.Env} {maxOpt : Int} {kfs kfs' : List Act.KeyFrame}
    (h : Act.activate nth sort fuel e maxOpt kfs = .ok (some kfs')) :
    kfs'.length = kfs.length ∧ ∀ (k : Nat) kf, kfs[k]? = some kf → ∃ kf' act, kfs'[k]? = some kf' ∧
      (act ++ kf'.immature).Perm kf.immature ∧ kf'.optimized = kf.optimized ++ act.map Act.Optimized.ofImmature := by
  have h' := h
  unfold Act.activate at h'
  cases hm : DistMap.build e.width e.height ⟨480, 302⟩ (Act.optPoints e 0 kfs) fuel with
  | error er => rw [hm] at h'; simp only [Act.activateWith] at h'; cases h'
  | ok o =>
    cases o with
    | none => rw [hm] at h'; simp only [Act.activateWith] at h'; cases h'
    | some m =>
      rw [hm] at h'
      simp only [Act.activateWith] at h'
      cases hc : DistMap.choose nth m ((Act.candidates e 0 kfs).map Prod.fst) (maxOpt - Act.curOptPoints kfs) with
      | error er => rw [hc] at h'; cases h'
      | ok chosen =>
        obtain ⟨kfs'', b1, b2, -, b4⟩ := Act.C19_activation nth hn sort hs fuel e maxOpt kfs m hm chosen hc
        rw [h] at b1
        cases b1
        refine ⟨b2, fun k kf hk => ?_⟩
        obtain ⟨kf', act, -, g1, g2, g3, -⟩ := b4 k kf hk
        exact ⟨kf', act, g1, g2, g3⟩

theorem stage_zip (w : List Entry) (kfs : List Act.KeyFrame) (hlen : kfs.length = (w.map Prod.snd).length)
    (h : ∀ (k : Nat) kf, (w.map Prod.snd)[k]? = some kf → ∃ kf' act, kfs[k]? = some kf' ∧
      (act ++ kf'.immature).Perm kf.immature ∧ kf'.optimized = kf.optimized ++ act.map Act.Optimized.ofImmature) :
    List.Forall₂ Stage w ((w.map Prod.fst).zip kfs) := by
  induction w generalizing kfs with
  | nil => simp at hlen; subst hlen; exact .nil
  | cons e w ih =>
    cases kfs with
    | nil => simp at hlen
    | cons kf kfs =>
      obtain ⟨kf', act, g1, g2, g3⟩ := h 0 e.2 rfl
      simp only [List.getElem?_cons_zero, Option.some.injEq] at g1
      subst g1
      refine .cons ⟨rfl, ?_, ?_⟩ (ih kfs (by simpa using hlen) (fun k kf hk => by simpa using h (k + 1) kf (by simpa using hk)))
      · unfold places
        simp only
        rw [g3, List.map_append, List.append_assoc]
        refine List.Perm.append (List.Perm.refl _) ?_
        have := g2.map (fun ip : Act.Immature => ip.p)
        rw [List.map_append] at this
        rw [List.map_map]
        exact this
      · exact ⟨_, _, g3, forall₂_refl Later.refl _⟩

theorem optimizedCount_zip (w : List Entry) (kfs : List Act.KeyFrame) (hlen : kfs.length = (w.map Prod.snd).length) :
    optimizedCount ((w.map Prod.fst).zip kfs) = Act.curOptPoints kfs := by
  unfold optimizedCount Act.curOptPoints
  have : (fun e : Entry => e.2.optimized.length) = (fun kf : Act.KeyFrame => kf.optimized.length) ∘ Prod.snd := rfl
  rw [this, ← List.map_map, List.map_snd_zip (by simpa using hlen.le)]

theorem withNumbers_some {nums : List Int} {r : Except Fault (Option (List Act.KeyFrame))} {w' : List Entry} (h : withNumbers nums r = .ok (some w')) :
    ∃ kfs, r = .ok (some kfs) ∧ w' = nums.zip kfs := by
  cases r with
  | error e => cases h
  | ok o =>
    cases o with
    | none => cases h
    | some kfs => injection h with h; injection h with h; exact ⟨kfs, rfl, h.symm⟩

theorem afterActivation_some {p : Params} {sys : Dso.State G} {x : FrameIn G} {handed : List Entry} {r : Except Fault (Option (List Entry))} {s' : State G}
    (h : afterActivation p sys x handed r = .ok (some s')) : ∃ w, r = .ok (some w) ∧ s' = ⟨sys, adjust p x w, handed⟩ := by
  cases r with
  | error e => cases h
  | ok o =>
    cases o with
    | none => cases h
    | some w => injection h with h; injection h with h; exact ⟨w, rfl, h.symm⟩

theorem andThen_some {α β : Type} {f : α → Except Fault (Option β)} {r : Except Fault (Option α)} {b : β} (h : andThen f r = .ok (some b)) :
    ∃ a, r = .ok (some a) ∧ f a = .ok (some b) := by
  cases r with
  | error e => cases h
  | ok o =>
    cases o with
    | none => cases h
    | some a => exact ⟨a, rfl, h⟩

theorem activate_eq {p : Params} {x : FrameIn G} {w : List Entry} {i : Nat} (hb : Dso.baseIndex p.set w.length = some i) :
    activate p x w = withNumbers (w.map Prod.fst)
      (Act.activate p.nth p.sort x.fuel ⟨x.env.width, x.env.height, i, x.env.reproject, x.env.optimizedStddev⟩ p.maxOptimizedPoints (w.map Prod.snd)) := by
  unfold activate
  simp only [hb]

theorem activate_some {p : Params} {x : FrameIn G} {w w' : List Entry} (h : activate p x w = .ok (some w')) :
    ∃ E kfs, Act.activate p.nth p.sort x.fuel E p.maxOptimizedPoints (w.map Prod.snd) = .ok (some kfs) ∧ w' = (w.map Prod.fst).zip kfs := by
  cases hb : Dso.baseIndex p.set w.length with
  | none =>
    unfold activate at h
    simp only [hb] at h
    cases h
  | some i =>
    rw [activate_eq hb] at h
    obtain ⟨kfs, h1, h2⟩ := withNumbers_some h
    exact ⟨_, kfs, h1, h2⟩

/-- What activation guarantees whenever it returns. -/
theorem activate_facts {p : Params} (hn : DistMap.IsNthElement p.nth) (hs : Act.IsSort p.sort) {x : FrameIn G} {w w' : List Entry}
    (h : activate p x w = .ok (some w')) : List.Forall₂ Stage w w' ∧ (optimizedCount w' : Int) ≤ p.maxOptimizedPoints := by
  obtain ⟨E, kfs, ha, rfl⟩ := activate_some h
  obtain ⟨f1, f2⟩ := act_facts hn hs ha
  refine ⟨stage_zip w kfs f1 f2, ?_⟩
  rw [optimizedCount_zip w kfs f1]
  exact (Act.C20_budget p.nth hn p.sort hs x.fuel E p.maxOptimizedPoints _ kfs ha).2

theorem optimizedCount_adjust (p : Params) (x : FrameIn G) (w : List Entry) : optimizedCount (adjust p x w) = optimizedCount w := by
  unfold adjust optimizedCount
  split
  · rw [List.map_map]; congr 1; exact List.map_congr_left fun e _ => by simp
  · rfl

theorem optimizedCount_trace (x : FrameIn G) (w : List Entry) : optimizedCount (traceAll x w) = optimizedCount w := by
  unfold traceAll optimizedCount
  rw [List.map_map]; rfl

theorem insert_last (e : Entry) : ∀ w : List Entry, (∀ k ∈ w, k.1 < e.1) → insert e w = w ++ [e]
  | [], _ => rfl
  | k :: ks, h => by
    have hk := h k (by simp)
    rw [insert, if_neg (by omega), if_neg (by omega), insert_last e ks (fun k hk => h k (by simp [hk]))]
    rfl

theorem marginalize_append (set : Dso.Settings) (w : List Entry) : (marginalize set w).1 ++ (marginalize set w).2 = w := by
  unfold marginalize
  split
  · exact List.take_append_drop _ _
  · rfl

theorem marginalize_length {set : Dso.Settings} (h : 0 ≤ set.maxKeyFrames) (w : List Entry) :
    (marginalize set w).2.length = min set.maxKeyFrames.toNat w.length := by
  unfold marginalize
  split
  · simp; omega
  · simp only; omega

/-! ## The invariant -/

/-- What holds after every history `ns` of accepted frames. -/
structure Inv [Group G] (p : Params) (s : State G) (ns : List Int) : Prop where
  sys : Dso.Inv p.set s.sys ns
  nums : (everMade s).map Prod.fst = (book (Dso.policyOf p.set) ns).keyFrames
  wlen : s.window.length = min p.set.maxKeyFrames.toNat (book (Dso.policyOf p.set) ns).length
  pts : ∀ e ∈ everMade s, (places e.2).Perm ((p.made e.1).map (·.p))
  budget : (optimizedCount s.window : Int) ≤ p.maxOptimizedPoints

theorem inv_create [Group G] {p : Params} (h0 : 0 ≤ p.maxOptimizedPoints) {s : State G} (h : create p.set = .ok s) : Inv p s [] := by
  unfold create at h
  cases hc : Dso.create p.set (G := G) with
  | error e => rw [hc] at h; cases h
  | ok sys =>
    rw [hc] at h
    cases h
    refine ⟨Dso.inv_create hc, by simp [everMade, book, Book.keyFrames], by simp [book], by simp [everMade], by simpa [optimizedCount] using h0⟩

/-- One frame, seen from outside: what was made stays, with `Stage` between, and what was handed over does not change any more. -/
structure Stepped (s s' : State G) : Prop where
  made : ∃ l new, everMade s' = l ++ new ∧ List.Forall₂ Stage (everMade s) l
  handed : s.handed <+: s'.handed

theorem Stepped.refl (s : State G) : Stepped s s := ⟨⟨everMade s, [], (List.append_nil _).symm, forall₂_refl Stage.refl _⟩, List.prefix_refl _⟩

theorem Stepped.trans {a b c : State G} (h : Stepped a b) (h' : Stepped b c) : Stepped a c := by
  obtain ⟨⟨l1, n1, e1, f1⟩, p1⟩ := h
  obtain ⟨⟨l2, n2, e2, f2⟩, p2⟩ := h'
  refine ⟨⟨l2.take l1.length, l2.drop l1.length ++ n2, by rw [e2, ← List.append_assoc, List.take_append_drop], ?_⟩, p1.trans p2⟩
  have := List.forall₂_take l1.length f2
  rw [e1, List.take_left] at this
  exact forall₂_trans (R := Stage) (fun _ _ _ h h' => Stage.trans h h') f1 this

theorem sys_step [Group G] {set : Dso.Settings} (hv : Dso.Valid set) {s : Dso.State G} {ns : List Int} (hi : Dso.Inv set s ns)
    {x : Dso.FrameIn G} (ha : Acceptable ns x.num) (hm : x.num < Dso.intMax) :
    ∃ s' o, Dso.addFrame set s x = .ok (s', o) ∧ Dso.Inv set s' (ns ++ [x.num]) := by
  by_cases h1 : ns.length < (Dso.policyOf set).skip + 1
  · obtain ⟨s1, e, hi1, _⟩ := Dso.step_skip hi ha hm h1
    exact ⟨s1, none, e, hi1⟩
  · by_cases h2 : ns.length = (Dso.policyOf set).skip + 1
    · obtain ⟨s1, _, _, _, e, hi1, _⟩ := Dso.step_init hv hi ha hm h2
      exact ⟨s1, _, e, hi1⟩
    · obtain ⟨s1, _, e, hi1, _⟩ := Dso.step_track hv hi ha hm (by omega)
      exact ⟨s1, _, e, hi1⟩

/-- The numbers of the window are those of the window of `Model.DsoSystem`. -/
theorem window_nums [Group G] {p : Params} {s : State G} {ns : List Int} (hi : Inv p s ns) :
    s.window.map Prod.fst = s.sys.keyFrames.map (·.num) := by
  have h1 := hi.nums
  rw [← hi.sys.book] at h1
  have h2 := hi.wlen
  rw [← hi.sys.window] at h2
  have h3 : (Book.keyFrames ((Dso.marginalizedOf s.sys.log ++ s.sys.keyFrames).map Dso.entry))
      = (Dso.marginalizedOf s.sys.log).map (·.num) ++ s.sys.keyFrames.map (·.num) := by
    simp [Book.keyFrames, Dso.entry, Function.comp_def]
  rw [h3, everMade, List.map_append] at h1
  exact (List.append_inj' h1 (by simpa using h2)).2

/-- The four things that `addFrame` can come to. -/
theorem addFrame_cases [Group G] {p : Params} (hv : Dso.Valid p.set) {s : State G} {ns : List Int} (hi : Inv p s ns) {x : FrameIn G}
    (ha : Acceptable ns x.sys.num) (hm : x.sys.num < Dso.intMax) :
    ∃ sys', Dso.Inv p.set sys' (ns ++ [x.sys.num]) ∧
      ((addFrame p s x = .ok (some ⟨sys', s.window, s.handed⟩) ∧
          book (Dso.policyOf p.set) (ns ++ [x.sys.num]) = [] ∧ book (Dso.policyOf p.set) ns = []) ∨
       (∃ f, f < x.sys.num ∧ addFrame p s x = .ok (some ⟨sys', [newKeyFrame p f, newKeyFrame p x.sys.num], s.handed⟩) ∧
          (book (Dso.policyOf p.set) (ns ++ [x.sys.num])) = [(f, []), (x.sys.num, [])] ∧ book (Dso.policyOf p.set) ns = []) ∨
       (addFrame p s x = .ok (some ⟨sys', traceAll x s.window, s.handed⟩) ∧
          (book (Dso.policyOf p.set) (ns ++ [x.sys.num])).keyFrames = (book (Dso.policyOf p.set) ns).keyFrames) ∨
       (addFrame p s x = addKeyFrame p sys' x (traceAll x s.window) s.handed ∧ 2 ≤ s.window.length ∧
          (book (Dso.policyOf p.set) (ns ++ [x.sys.num])) = book (Dso.policyOf p.set) ns ++ [(x.sys.num, [])])) := by
  obtain ⟨sys', o, hok, hsys⟩ := sys_step hv hi.sys ha hm
  refine ⟨sys', hsys, ?_⟩
  by_cases h1 : ns.length < (Dso.policyOf p.set).skip + 1
  · left
    have hni : s.sys.isInitialized = false := by rw [hi.sys.initd]; simp; omega
    have hini := (hi.sys.ini (by omega)).2
    have key : (s.sys.initializer.addFrame p.set x.sys.num).2 = false := by
      rw [hini]
      cases ns with
      | nil => rfl
      | cons f rest =>
        have : (rest.length : Int) < p.set.firstFramesSkip := by
          simp [Dso.policyOf] at h1; omega
        simp [Dso.iniSpec, Dso.Initializer.addFrame, this]
    refine ⟨?_, book_lt (by simp; omega), book_lt (by omega)⟩
    unfold addFrame
    simp [hok, hni, key]
  · by_cases h2 : ns.length = (Dso.policyOf p.set).skip + 1
    · right; left
      have hni : s.sys.isInitialized = false := by rw [hi.sys.initd]; simp; omega
      have hini := (hi.sys.ini (by omega)).2
      have hbk : book (Dso.policyOf p.set) ns = [] := book_lt (by omega)
      have hw : s.window = [] := by
        have := hi.wlen
        rw [hbk] at this
        simpa using this
      cases ns with
      | nil => simp at h2
      | cons f rest =>
        have hrest : rest.length = (Dso.policyOf p.set).skip := by simpa using h2
        have hskip : ¬ ((rest.length : Int) < p.set.firstFramesSkip) := by
          simp [Dso.policyOf] at hrest; omega
        have hfn : f < x.sys.num := ha.2 f (by simp)
        have key : s.sys.initializer.addFrame p.set x.sys.num = (⟨true, rest.length, f⟩, true) := by
          rw [hini]
          simp [Dso.iniSpec, Dso.Initializer.addFrame, hskip]
        refine ⟨f, hfn, ?_, book_init (by omega), hbk⟩
        unfold addFrame
        have hkf : List.foldl (fun w kf => insert (newKeyFrame p kf.num) w) s.window
            ((⟨true, rest.length, f⟩ : Dso.Initializer).createKeyFrames x.sys.num x.sys.stereo) = [newKeyFrame p f, newKeyFrame p x.sys.num] := by
          rw [hw]
          simp only [Dso.Initializer.createKeyFrames, List.foldl_cons, List.foldl_nil, insert, newKeyFrame]
          rw [if_neg (by omega), if_neg (by omega)]
        simp only [hok, hni, key, hkf]
        rfl
    · right; right
      have hl : (Dso.policyOf p.set).skip + 2 ≤ ns.length := by omega
      have hni : s.sys.isInitialized = true := by rw [hi.sys.initd]; simpa using hl
      obtain ⟨hW2, hWd, hBl, hWns, hWnd⟩ := Dso.window_facts hv hi.sys hl
      have hWne : s.sys.keyFrames ≠ [] := by intro h; rw [h] at hW2; simp at hW2
      obtain ⟨last, hlast⟩ : ∃ last, s.sys.keyFrames.getLast? = some last :=
        ⟨_, List.getLast?_eq_some_getLast hWne⟩
      have hBlast : (FrameSpec.book (Dso.policyOf p.set) ns).getLast? = some (Dso.entry last) := by
        rw [← hi.sys.book, List.map_append, List.getLast?_append, List.getLast?_map, hlast]; rfl
      have hlastn : last.num < x.sys.num := ha.2 _ (hWns _ (by
        simp only [Dso.framesOf, List.mem_flatMap]; exact ⟨last, List.mem_of_getLast? hlast, by simp⟩))
      have hneed := Dso.doNeedKf_ok hv.shift hlast hlastn
      have hbt : FrameSpec.book (Dso.policyOf p.set) (ns ++ [x.sys.num])
          = if p.set.shiftBetweenKeyFrames ∣ x.sys.num - last.num then
              (if p.set.continueChoosingKeyFrames then
                FrameSpec.book (Dso.policyOf p.set) ns ++ [(x.sys.num, [])] else FrameSpec.book (Dso.policyOf p.set) ns)
            else attach p.set.trackFromLastKf (FrameSpec.book (Dso.policyOf p.set) ns) x.sys.num := by
        rw [book_snoc hl]
        unfold track
        rw [hBlast]
        rfl
      have hwl : 2 ≤ s.window.length := by
        have := congrArg List.length (window_nums hi)
        simp only [List.length_map] at this
        omega
      by_cases hdvd : p.set.shiftBetweenKeyFrames ∣ x.sys.num - last.num
      · rw [if_pos hdvd] at hbt
        cases hcont : p.set.continueChoosingKeyFrames with
        | false =>
          left
          refine ⟨?_, by rw [hbt, hcont]; rfl⟩
          unfold addFrame
          simp [hok, hni, hneed, hcont]
        | true =>
          right
          refine ⟨?_, hwl, by rw [hbt, hcont]; rfl⟩
          unfold addFrame
          simp [hok, hni, hneed, hcont, hdvd]
      · left
        rw [if_neg hdvd] at hbt
        refine ⟨?_, by rw [hbt, attach_keyFrames]⟩
        unfold addFrame
        simp [hok, hni, hneed, hdvd]

theorem addFrame_sys [Group G] {p : Params} {s s' : State G} {x : FrameIn G} (h : addFrame p s x = .ok (some s')) :
    ∃ o, Dso.addFrame p.set s.sys x.sys = .ok (s'.sys, o) := by
  cases hd : Dso.addFrame p.set s.sys x.sys with
  | error e =>
    unfold addFrame at h
    simp only [hd] at h
    cases h
  | ok so =>
    obtain ⟨sys', o⟩ := so
    refine ⟨o, ?_⟩
    suffices s'.sys = sys' by rw [this]
    unfold addFrame at h
    simp only [hd] at h
    cases hin : s.sys.isInitialized with
    | false =>
      simp only [hin, Bool.not_false, if_true] at h
      by_cases h2 : (s.sys.initializer.addFrame p.set x.sys.num).2 = true
      · rw [if_pos h2] at h
        cases h; rfl
      · rw [if_neg h2] at h
        cases h; rfl
    | true =>
      simp only [hin, Bool.not_true, Bool.false_eq_true, if_false] at h
      cases hk : Dso.doNeedKf p.set s.sys.keyFrames x.sys.num with
      | error e => simp only [hk] at h; cases h
      | ok need =>
        simp only [hk] at h
        by_cases h2 : (p.set.continueChoosingKeyFrames && need) = true
        · rw [if_pos h2] at h
          unfold addKeyFrame at h
          obtain ⟨w, -, rfl⟩ := afterActivation_some h
          rfl
        · rw [if_neg h2] at h
          cases h; rfl

theorem forall₂_mem {α : Type} {R : α → α → Prop} {a b : List α} (h : List.Forall₂ R a b) : ∀ e ∈ a, ∃ e' ∈ b, R e e' := by
  induction h with
  | nil => intro e he; cases he
  | cons h _ ih =>
    intro e he
    rcases List.mem_cons.1 he with rfl | he
    · exact ⟨_, by simp, h⟩
    · obtain ⟨e', h1, h2⟩ := ih e he
      exact ⟨e', by simp [h1], h2⟩

theorem forall₂_nums {a b : List Entry} (h : List.Forall₂ Stage a b) : b.map Prod.fst = a.map Prod.fst := by
  induction h with
  | nil => rfl
  | cons h _ ih => simp [h.1, ih]

theorem forall₂_places {p : Params} {a b : List Entry} (h : List.Forall₂ Stage a b)
    (hp : ∀ e ∈ a, (places e.2).Perm ((p.made e.1).map (·.p))) : ∀ e ∈ b, (places e.2).Perm ((p.made e.1).map (·.p)) := by
  induction h with
  | nil => exact hp
  | cons h _ ih =>
    intro e he
    rcases List.mem_cons.1 he with rfl | he
    · rw [h.1]
      exact h.2.1.trans (hp _ (by simp))
    · exact ih (fun e he => hp e (by simp [he])) e he

theorem step [Group G] {p : Params} (hv : Dso.Valid p.set) (h0 : 0 ≤ p.maxOptimizedPoints) (hn : DistMap.IsNthElement p.nth) (hs : Act.IsSort p.sort)
    {s s' : State G} {ns : List Int} (hi : Inv p s ns) {x : FrameIn G}
    (ha : Acceptable ns x.sys.num) (hm : x.sys.num < Dso.intMax) (h : addFrame p s x = .ok (some s')) :
    Inv p s' (ns ++ [x.sys.num]) ∧ Stepped s s' := by
  obtain ⟨sys', hsys, hc⟩ := addFrame_cases hv hi ha hm
  rcases hc with ⟨e, b1, b2⟩ | ⟨f, hf, e, b1, b2⟩ | ⟨e, b1⟩ | ⟨e, hwl, b1⟩
  · rw [e] at h
    cases h
    have h1 := hi.nums
    have h2 := hi.wlen
    rw [b2] at h1 h2
    exact ⟨⟨hsys, by rw [b1]; exact h1, by rw [b1]; exact h2, hi.pts, hi.budget⟩,
      ⟨⟨everMade s, [], (List.append_nil _).symm, forall₂_refl Stage.refl _⟩, List.prefix_refl _⟩⟩
  · rw [e] at h
    cases h
    have h1 := hi.nums
    rw [b2] at h1
    have h1' : everMade s = [] := by simpa [Book.keyFrames] using h1
    obtain ⟨hh, hw⟩ : s.handed = [] ∧ s.window = [] := by simpa [everMade] using h1'
    have hmax : 2 ≤ p.set.maxKeyFrames.toNat := by have := hv.window; omega
    refine ⟨⟨hsys, ?_, ?_, ?_, ?_⟩, ⟨⟨[], [newKeyFrame p f, newKeyFrame p x.sys.num], ?_, ?_⟩, List.prefix_refl _⟩⟩
    · rw [b1]; simp [everMade, hh, newKeyFrame, Book.keyFrames]
    · rw [b1]; simp; omega
    · intro e he
      simp only [everMade, hh, List.nil_append, List.mem_cons, List.not_mem_nil, or_false] at he
      rcases he with rfl | rfl <;> simp [newKeyFrame, places]
    · simpa [optimizedCount, newKeyFrame] using h0
    · simp [everMade, hh]
    · rw [h1']; exact .nil
  · rw [e] at h
    cases h
    have hst := stage_trace x s.window
    have hev : List.Forall₂ Stage (everMade s) (s.handed ++ traceAll x s.window) := List.rel_append (forall₂_refl Stage.refl _) hst
    have hbl : (book (Dso.policyOf p.set) (ns ++ [x.sys.num])).length = (book (Dso.policyOf p.set) ns).length := by
      have := congrArg List.length b1
      simpa [Book.keyFrames] using this
    refine ⟨⟨hsys, ?_, ?_, ?_, ?_⟩, ⟨⟨_, [], (List.append_nil _).symm, hev⟩, List.prefix_refl _⟩⟩
    · rw [b1, ← hi.nums]; exact forall₂_nums hev
    · rw [hbl, ← hi.wlen]; simp [traceAll]
    · exact forall₂_places hev hi.pts
    · rw [optimizedCount_trace]; exact hi.budget
  · rw [e] at h
    unfold addKeyFrame at h
    dsimp only at h
    obtain ⟨w, hw, rfl⟩ := afterActivation_some h
    obtain ⟨f1, f2⟩ := activate_facts hn hs hw
    have hst := stage_trace x s.window
    have hlt : ∀ k ∈ traceAll x s.window, k.1 < x.sys.num := by
      intro k hk
      have h1 : k.1 ∈ (traceAll x s.window).map Prod.fst := List.mem_map_of_mem hk
      rw [forall₂_nums hst, window_nums hi] at h1
      obtain ⟨kf, hkf, hkn⟩ := List.mem_map.1 h1
      have : kf.num ∈ (book (Dso.policyOf p.set) (ns ++ [x.sys.num])).keyFrames.dropLast := by
        rw [b1, ← hi.sys.book]
        simp only [Book.keyFrames, List.map_append, List.map_cons, List.map_nil, List.dropLast_concat, List.mem_append, List.mem_map]
        right
        exact ⟨Dso.entry kf, ⟨kf, hkf, rfl⟩, rfl⟩
      have hsorted := keyFrames_sorted (p := Dso.policyOf p.set) hsys.sorted
      rw [b1] at this hsorted
      simp only [Book.keyFrames, List.map_append, List.map_cons, List.map_nil, List.dropLast_concat] at this hsorted
      rw [← hkn]
      exact (List.pairwise_append.1 hsorted).2.2 _ this _ (by simp)
    have hins := insert_last (newKeyFrame p x.sys.num) (traceAll x s.window) hlt
    rw [hins] at hw f1
    rw [hins]
    obtain ⟨r, hr⟩ : ∃ r, r = marginalize p.set (traceAll x s.window ++ [newKeyFrame p x.sys.num]) := ⟨_, rfl⟩
    have hr1 := marginalize_append p.set (traceAll x s.window ++ [newKeyFrame p x.sys.num])
    have hr2 := marginalize_length (set := p.set) (by have := hv.window; omega) (traceAll x s.window ++ [newKeyFrame p x.sys.num])
    rw [← hr] at hr1 hr2 f1 hw ⊢
    have f3 : List.Forall₂ Stage r.2 (adjust p x w) := forall₂_trans (R := Stage) (fun _ _ _ h h' => Stage.trans h h') f1 (stage_adjust p x w)
    have hall : List.Forall₂ Stage (s.handed ++ traceAll x s.window ++ [newKeyFrame p x.sys.num]) (s.handed ++ r.1 ++ adjust p x w) := by
      rw [List.append_assoc, ← hr1, List.append_assoc]
      exact List.rel_append (forall₂_refl Stage.refl _) (List.rel_append (forall₂_refl Stage.refl _) f3)
    have hev : List.Forall₂ Stage (everMade s) (s.handed ++ traceAll x s.window) := List.rel_append (forall₂_refl Stage.refl _) hst
    have hlen : (traceAll x s.window).length = s.window.length := by simp [traceAll]
    refine ⟨⟨hsys, ?_, ?_, ?_, ?_⟩, ⟨?_, List.prefix_append _ _⟩⟩
    · show (s.handed ++ r.1 ++ adjust p x w).map Prod.fst = _
      rw [forall₂_nums hall, List.map_append, forall₂_nums hev, hi.nums, b1]
      simp [Book.keyFrames, newKeyFrame]
    · show (adjust p x w).length = _
      rw [← f3.length_eq, hr2, b1]
      simp only [List.length_append, List.length_cons, List.length_nil, hlen]
      rw [hi.wlen]
      omega
    · show ∀ e ∈ s.handed ++ r.1 ++ adjust p x w, _
      refine forall₂_places hall ?_
      intro e he
      rcases List.mem_append.1 he with he | he
      · exact forall₂_places hev hi.pts e he
      · simp only [List.mem_cons, List.not_mem_nil, or_false] at he
        subst he
        simp [newKeyFrame, places]
    · show (optimizedCount (adjust p x w) : Int) ≤ _
      rw [optimizedCount_adjust]; exact f2
    · obtain ⟨l1, l2, hl1, hl2, hl3⟩ : ∃ l1 l2, s.handed ++ r.1 ++ adjust p x w = l1 ++ l2 ∧
          List.Forall₂ Stage (s.handed ++ traceAll x s.window) l1 ∧ l2.length = 1 := by
        have ht := List.forall₂_take (s.handed ++ traceAll x s.window).length hall
        rw [List.take_left] at ht
        exact ⟨_, _, (List.take_append_drop (s.handed ++ traceAll x s.window).length _).symm, ht, by
          have := hall.length_eq
          simp only [List.length_append, List.length_cons, List.length_nil] at this
          simp only [List.length_drop, List.length_append]
          omega⟩
      exact ⟨l1, l2, hl1, forall₂_trans (R := Stage) (fun _ _ _ h h' => Stage.trans h h') hev hl2⟩

theorem run_inv [Group G] {p : Params} (hv : Dso.Valid p.set) (h0 : 0 ≤ p.maxOptimizedPoints) (hn : DistMap.IsNthElement p.nth) (hs : Act.IsSort p.sort) :
    ∀ (xs : List (FrameIn G)) {s s' : State G} {ns : List Int}, Inv p s ns → (ns ++ xs.map (·.sys.num)).Pairwise (· < ·) →
      (∀ x ∈ xs, 0 < x.sys.num ∧ x.sys.num < Dso.intMax) → run p s xs = .ok (some s') →
      Inv p s' (ns ++ xs.map (·.sys.num)) ∧ Stepped s s' ∧ ∃ rs, Dso.run p.set s.sys (xs.map (·.sys)) = .ok (s'.sys, rs) := by
  intro xs
  induction xs with
  | nil =>
    intro s s' ns hi _ _ h
    rw [run] at h
    injection h with h
    injection h with h
    subst h
    exact ⟨by simpa using hi, Stepped.refl _, [], rfl⟩
  | cons x xs ih =>
    intro s s' ns hi hp hb h
    rw [run] at h
    obtain ⟨s1, e1, e2⟩ := andThen_some h
    have hacc : Acceptable ns x.sys.num := by
      refine ⟨(hb x (by simp)).1, fun m hm => ?_⟩
      exact (List.pairwise_append.1 hp).2.2 m hm x.sys.num (by simp)
    have hm := (hb x (by simp)).2
    have hp' : ((ns ++ [x.sys.num]) ++ xs.map (·.sys.num)).Pairwise (· < ·) := by simpa using hp
    have hb' : ∀ x ∈ xs, 0 < x.sys.num ∧ x.sys.num < Dso.intMax := fun y hy => hb y (by simp [hy])
    obtain ⟨i1, t1⟩ := step hv h0 hn hs hi hacc hm e1
    obtain ⟨i2, t2, rs, r2⟩ := ih i1 hp' hb' e2
    refine ⟨by simpa using i2, t1.trans t2, ?_⟩
    obtain ⟨o, ho⟩ := addFrame_sys e1
    refine ⟨o :: rs, ?_⟩
    rw [List.map_cons, Dso.run, ho]
    simp only [r2]

/-- **C169.** After any number of frames: the keyframes handed over and then those held are all keyframes of the history, in order, and the ones held are those that
`Model.DsoSystem` holds, the newest `maxKeyFrames`; every keyframe, held or handed over, has exactly one point for every point it was made with, at the same place, either a
candidate or an optimized one; and no more than `maxOptimizedPoints` of those held are optimized. -/
theorem C169_points [Group G] {p : Params} (hv : Dso.Valid p.set) (h0 : 0 ≤ p.maxOptimizedPoints) (hn : DistMap.IsNthElement p.nth)
    (hs : Act.IsSort p.sort) {s0 s : State G} (hc : create p.set = .ok s0) {xs : List (FrameIn G)} (hl : Dso.Legal (xs.map (·.sys.num)))
    (h : run p s0 xs = .ok (some s)) :
    (everMade s).map Prod.fst = (book (Dso.policyOf p.set) (xs.map (·.sys.num))).keyFrames ∧
    (∃ rs, Dso.run p.set s0.sys (xs.map (·.sys)) = .ok (s.sys, rs)) ∧ s.window.map Prod.fst = s.sys.keyFrames.map (·.num) ∧
    s.window.length = min p.set.maxKeyFrames.toNat (everMade s).length ∧
    (∀ e ∈ everMade s, (places e.2).Perm ((p.made e.1).map (·.p))) ∧
    (optimizedCount s.window : Int) ≤ p.maxOptimizedPoints := by
  obtain ⟨hi, -, hr⟩ := run_inv hv h0 hn hs xs (inv_create h0 hc) (by simpa using hl.1) (by simpa using hl.2) h
  simp only [List.nil_append] at hi
  refine ⟨hi.nums, hr, window_nums hi, ?_, hi.pts, hi.budget⟩
  have h1 := congrArg List.length hi.nums
  simp only [Book.keyFrames, List.length_map] at h1
  rw [h1]
  exact hi.wlen

theorem pointCount_le {p : Params} {N : Nat} (hN : ∀ n, (p.made n).length ≤ N) :
    ∀ w : List Entry, (∀ e ∈ w, (places e.2).Perm ((p.made e.1).map (·.p))) → pointCount w ≤ w.length * N
  | [], _ => by simp [pointCount]
  | e :: w, h => by
    have h1 := (h e (by simp)).length_eq
    have h2 := pointCount_le hN w fun e he => h e (by simp [he])
    have h3 := hN e.1
    simp only [places, List.length_append, List.length_map] at h1
    simp only [pointCount, List.map_cons, List.sum_cons, List.length_cons] at h2 ⊢
    rw [Nat.succ_mul]
    omega

/-- **C169, the memory for points.** If no keyframe is made with more than `N` points, the keyframes held never have more than `maxKeyFrames * N` points together. -/
theorem C169_bound [Group G] {p : Params} (hv : Dso.Valid p.set) (h0 : 0 ≤ p.maxOptimizedPoints) (hn : DistMap.IsNthElement p.nth)
    (hs : Act.IsSort p.sort) {s0 s : State G} (hc : create p.set = .ok s0) {xs : List (FrameIn G)} (hl : Dso.Legal (xs.map (·.sys.num)))
    (h : run p s0 xs = .ok (some s)) {N : Nat} (hN : ∀ n, (p.made n).length ≤ N) : pointCount s.window ≤ p.set.maxKeyFrames.toNat * N := by
  obtain ⟨-, -, -, h1, h2, -⟩ := C169_points hv h0 hn hs hc hl h
  refine (pointCount_le hN s.window fun e he => h2 e (by simp [everMade, he])).trans (Nat.mul_le_mul_right N ?_)
  omega

/-- **C169, as time goes by.** Keyframes once handed over do not change any more. Every keyframe made so far is there at any later time, only once, at the same places;
its optimized points are still optimized points, in their order, at their place and with their deviation, and those found to be bad are still bad. -/
theorem C169_stay [Group G] {p : Params} (hv : Dso.Valid p.set) (h0 : 0 ≤ p.maxOptimizedPoints) (hn : DistMap.IsNthElement p.nth)
    (hs : Act.IsSort p.sort) {s0 s s' : State G} (hc : create p.set = .ok s0) {xs ys : List (FrameIn G)}
    (hl : Dso.Legal ((xs ++ ys).map (·.sys.num))) (h : run p s0 xs = .ok (some s)) (h' : run p s ys = .ok (some s')) :
    s.handed <+: s'.handed ∧ ((everMade s').map Prod.fst).Nodup ∧
    ∀ e ∈ everMade s, ∃ e' ∈ everMade s', e'.1 = e.1 ∧ (places e'.2).Perm (places e.2) ∧ Grown e.2.optimized e'.2.optimized := by
  have hl1 : ((xs.map (·.sys.num)) ++ ys.map (·.sys.num)).Pairwise (· < ·) := by simpa using hl.1
  have hl2 : ∀ x ∈ xs ++ ys, 0 < x.sys.num ∧ x.sys.num < Dso.intMax := fun x hx => hl.2 _ (List.mem_map_of_mem (f := fun x : FrameIn G => x.sys.num) hx)
  obtain ⟨hi, -, -⟩ := run_inv hv h0 hn hs xs (inv_create h0 hc) (by simpa using (List.pairwise_append.1 hl1).1)
    (fun x hx => hl2 x (by simp [hx])) h
  simp only [List.nil_append] at hi
  obtain ⟨hi', ht, -⟩ := run_inv hv h0 hn hs ys hi hl1 (fun x hx => hl2 x (by simp [hx])) h'
  refine ⟨ht.handed, ?_, ?_⟩
  · rw [hi'.nums]
    exact (keyFrames_sorted hl1).imp (fun h => by omega)
  · obtain ⟨l, new, e1, e2⟩ := ht.made
    intro e he
    obtain ⟨e', he', hst⟩ := forall₂_mem e2 e he
    exact ⟨e', by rw [e1]; simp [he'], hst⟩

/-! ## The next call returns -/

theorem readyOf_pos (e : Act.Env) (k : Nat) : ∀ (ips : List Act.Immature) (ind : Nat), ∀ c ∈ Act.readyOf e k ind ips,
    ∃ ip ∈ ips, c.1 = ip.p ∨ c.1 = e.reproject k ip.p ip.depth
  | [], _, c, hc => by simp [Act.readyOf] at hc
  | ip :: ips, ind, c, hc => by
    rw [Act.readyOf] at hc
    have hrest : c ∈ Act.readyOf e k (ind + 1) ips → ∃ ip' ∈ ip :: ips, c.1 = ip'.p ∨ c.1 = e.reproject k ip'.p ip'.depth := fun h => by
      obtain ⟨ip', h1, h2⟩ := readyOf_pos e k ips (ind + 1) c h
      exact ⟨ip', by simp [h1], h2⟩
    split at hc
    · rcases List.mem_cons.1 hc with rfl | hc
      · refine ⟨ip, by simp, ?_⟩
        unfold Act.Env.pos
        dsimp only
        split
        · exact Or.inl rfl
        · exact Or.inr rfl
      · exact hrest hc
    · exact hrest hc

theorem candidates_pos (e : Act.Env) : ∀ (kfs : List Act.KeyFrame) (k : Nat), ∀ c ∈ Act.candidates e k kfs,
    ∃ kf ∈ kfs, ∃ ip ∈ kf.immature, c.1 = ip.p ∨ ∃ k', c.1 = e.reproject k' ip.p ip.depth
  | [], _, c, hc => by simp [Act.candidates] at hc
  | kf :: kfs, k, c, hc => by
    rw [Act.candidates] at hc
    rcases List.mem_append.1 hc with hc | hc
    · obtain ⟨ip, h1, h2⟩ := readyOf_pos e k kf.immature 0 c hc
      exact ⟨kf, by simp, ip, h1, h2.imp id fun h => ⟨k, h⟩⟩
    · obtain ⟨kf', h1, h2⟩ := candidates_pos e kfs (k + 1) c hc
      exact ⟨kf', by simp [h1], h2⟩

/-- Activation returns if the number of optimized points is within the budget and the distance map can work. -/
theorem activate_returns {p : Params} (hn : DistMap.IsNthElement p.nth) (hs : Act.IsSort p.sort) {x : FrameIn G} {n : Nat} (hx : Fits p x n)
    {w : List Entry} (h2 : 2 ≤ w.length) (hp : ∀ e ∈ w, (places e.2).Perm ((p.made e.1).map (·.p)))
    (hb : (optimizedCount w : Int) ≤ p.maxOptimizedPoints) :
    ∃ N w', ∀ fuel ≥ N, activate p (x.withFuel fuel) w = .ok (some w') := by
  obtain ⟨i, hi⟩ : ∃ i, Dso.baseIndex p.set w.length = some i := by
    unfold Dso.baseIndex
    by_cases ht : p.set.trackFromLastKf = true
    · rw [if_pos ht, if_pos (by omega)]; exact ⟨_, rfl⟩
    · rw [if_neg ht, if_pos (by omega)]; exact ⟨_, rfl⟩
  obtain ⟨E, hE⟩ : ∃ E : Act.Env, E = ⟨x.env.width, x.env.height, i, x.env.reproject, x.env.optimizedStddev⟩ := ⟨_, rfl⟩
  have hEw : E.width = x.env.width := by rw [hE]
  have hEh : E.height = x.env.height := by rw [hE]
  have hEr : E.reproject = x.env.reproject := by rw [hE]
  obtain ⟨m, N, b1, b2, b3, b4, -⟩ := DistMap.C21_distance E.width E.height ⟨480, 302⟩ (Act.optPoints E 0 (w.map Prod.snd))
    (by rw [hEw, hEh, hx.factor]; have := hx.pos; omega)
    (by
      intro q _ hq
      rw [hEw, hEh] at hq ⊢
      rw [hx.factor]
      exact DistMap.C23_inside_partial _ _ n hx.pos hx.width hx.height q hq)
  rw [hEw, hEh, hx.factor] at b2
  rw [b2, hEw] at b3
  rw [b2, hEh] at b4
  have hcnt : optimizedCount w = Act.curOptPoints (w.map Prod.snd) := by
    unfold optimizedCount Act.curOptPoints
    rw [List.map_map]; rfl
  obtain ⟨chosen, c1, -⟩ := DistMap.C22_choose_partial p.nth hn m ((Act.candidates E 0 (w.map Prod.snd)).map Prod.fst)
    (p.maxOptimizedPoints - Act.curOptPoints (w.map Prod.snd)) (by rw [← hcnt]; omega) (by
      intro q hq
      obtain ⟨c, hc, rfl⟩ := List.mem_map.1 hq
      obtain ⟨kf, hkf, ip, hip, hpos⟩ := candidates_pos E _ 0 c hc
      rw [b2, b3, b4]
      rcases hpos with hpos | ⟨k', hpos⟩
      · obtain ⟨e, he, rfl⟩ := List.mem_map.1 hkf
        have : ip.p ∈ places e.2 := by
          unfold places
          exact List.mem_append_right _ (List.mem_map_of_mem (f := fun ip : Act.Immature => ip.p) hip)
        obtain ⟨ip', hip', hpp⟩ := List.mem_map.1 ((hp e he).mem_iff.1 this)
        have hon := hx.made e.1 ip' hip'
        rw [hpp] at hon
        have hin := DistMap.C23_inside_partial _ _ n hx.pos hx.width hx.height ip.p hon
        rw [hpos]
        have hcell : DistMap.cellOf n ip.p = DistMapSpec.cell n ip.p := by
          have := DistMap.cellOf_nonneg (n := n) hon.1 hon.2.2.1
          exact this
        rw [hcell]
        unfold DistMapSpec.InMap at hin
        unfold DistMap.OnEdge
        omega
      · rw [hpos, hEr]
        exact hx.projected k' ip.p ip.depth)
  obtain ⟨kfs', d1, -⟩ := Act.C19_activation p.nth hn p.sort hs N E p.maxOptimizedPoints (w.map Prod.snd) m (b1 N (le_refl _)) chosen c1
  refine ⟨N, (w.map Prod.fst).zip kfs', fun fuel hf => ?_⟩
  obtain ⟨kfs'', d1', -⟩ := Act.C19_activation p.nth hn p.sort hs fuel E p.maxOptimizedPoints (w.map Prod.snd) m (b1 fuel hf) chosen c1
  have hsame : Act.activate p.nth p.sort fuel E p.maxOptimizedPoints (w.map Prod.snd) = Act.activate p.nth p.sort N E p.maxOptimizedPoints (w.map Prod.snd) := by
    unfold Act.activate
    rw [b1 fuel hf, b1 N (le_refl _)]
  rw [activate_eq hi]
  show withNumbers _ (Act.activate p.nth p.sort fuel ⟨x.env.width, x.env.height, i, x.env.reproject, x.env.optimizedStddev⟩ p.maxOptimizedPoints _) = _
  rw [← hE, hsame, d1]
  rfl

theorem optimizedCount_append (a b : List Entry) : optimizedCount (a ++ b) = optimizedCount a + optimizedCount b := by
  simp [optimizedCount]

theorem next [Group G] {p : Params} (hv : Dso.Valid p.set) (hn : DistMap.IsNthElement p.nth) (hs : Act.IsSort p.sort)
    {s : State G} {ns : List Int} (hi : Inv p s ns) {x : FrameIn G} {n : Nat} (hx : Fits p x n)
    (ha : Acceptable ns x.sys.num) (hm : x.sys.num < Dso.intMax) :
    ∃ N, ∀ fuel ≥ N, ∃ s', addFrame p s (x.withFuel fuel) = .ok (some s') := by
  have hst := stage_trace x s.window
  have hlt : ∀ k ∈ traceAll x s.window, k.1 < x.sys.num := by
    intro k hk
    have h1 : k.1 ∈ (traceAll x s.window).map Prod.fst := List.mem_map_of_mem hk
    rw [forall₂_nums hst, window_nums hi] at h1
    obtain ⟨kf, hkf, hkn⟩ := List.mem_map.1 h1
    rw [← hkn]
    refine ha.2 _ ?_
    have : kf.num ∈ (book (Dso.policyOf p.set) ns).keyFrames := by
      rw [← hi.sys.book]
      simp only [Book.keyFrames, List.map_append, List.mem_append, List.mem_map]
      right
      exact ⟨Dso.entry kf, ⟨kf, hkf, rfl⟩, rfl⟩
    exact mem_frames (mem_keyFrames_frames this)
  have hins := insert_last (newKeyFrame p x.sys.num) (traceAll x s.window) hlt
  obtain ⟨r, hr⟩ : ∃ r, r = marginalize p.set (traceAll x s.window ++ [newKeyFrame p x.sys.num]) := ⟨_, rfl⟩
  have hr1 := marginalize_append p.set (traceAll x s.window ++ [newKeyFrame p x.sys.num])
  have hr2 := marginalize_length (set := p.set) (by have := hv.window; omega) (traceAll x s.window ++ [newKeyFrame p x.sys.num])
  rw [← hr] at hr1 hr2
  have hpt : ∀ e ∈ r.2, (places e.2).Perm ((p.made e.1).map (·.p)) := by
    intro e he
    have : e ∈ traceAll x s.window ++ [newKeyFrame p x.sys.num] := by rw [← hr1]; simp [he]
    rcases List.mem_append.1 this with h | h
    · exact forall₂_places hst (fun e he => hi.pts e (by simp [everMade, he])) e h
    · simp only [List.mem_cons, List.not_mem_nil, or_false] at h
      subst h
      simp [newKeyFrame, places]
  have hcount : optimizedCount r.1 + optimizedCount r.2 = optimizedCount s.window := by
    rw [← optimizedCount_append, hr1, optimizedCount_append, optimizedCount_trace]
    simp [optimizedCount, newKeyFrame]
  have hbud : (optimizedCount r.2 : Int) ≤ p.maxOptimizedPoints := by
    have := hi.budget
    omega
  by_cases h2 : 2 ≤ s.window.length
  · obtain ⟨N, w', hN⟩ := activate_returns hn hs hx (w := r.2) (by
      rw [hr2]
      have := hv.window
      simp [traceAll]
      omega) hpt hbud
    refine ⟨N, fun fuel hf => ?_⟩
    obtain ⟨sys', -, hc⟩ := addFrame_cases hv hi (x := x.withFuel fuel) ha hm
    rcases hc with ⟨e, -⟩ | ⟨f, -, e, -⟩ | ⟨e, -⟩ | ⟨e, -⟩
    · exact ⟨_, e⟩
    · exact ⟨_, e⟩
    · exact ⟨_, e⟩
    · rw [e]
      have e1 : traceAll (x.withFuel fuel) s.window = traceAll x s.window := rfl
      have e2 : (x.withFuel fuel).sys.num = x.sys.num := rfl
      unfold addKeyFrame
      rw [e1, e2, hins, ← hr]
      dsimp only
      rw [hN fuel hf]
      exact ⟨_, rfl⟩
  · refine ⟨0, fun fuel _ => ?_⟩
    obtain ⟨sys', -, hc⟩ := addFrame_cases hv hi (x := x.withFuel fuel) ha hm
    rcases hc with ⟨e, -⟩ | ⟨f, -, e, -⟩ | ⟨e, -⟩ | ⟨e, h, -⟩
    · exact ⟨_, e⟩
    · exact ⟨_, e⟩
    · exact ⟨_, e⟩
    · exact absurd h h2

/-- **C169, the next frame.** After any number of frames, the budget is never the reason for a failure: if the distance map can work with the projected points, the next
call returns for every frame number that may come next. -/
theorem C169_next [Group G] {p : Params} (hv : Dso.Valid p.set) (h0 : 0 ≤ p.maxOptimizedPoints) (hn : DistMap.IsNthElement p.nth)
    (hs : Act.IsSort p.sort) {s0 s : State G} (hc : create p.set = .ok s0) {xs : List (FrameIn G)} {x : FrameIn G}
    (hl : Dso.Legal ((xs ++ [x]).map (·.sys.num))) (h : run p s0 xs = .ok (some s)) {n : Nat} (hx : Fits p x n) :
    ∃ N, ∀ fuel ≥ N, ∃ s', addFrame p s (x.withFuel fuel) = .ok (some s') := by
  have hl1 : ((xs.map (·.sys.num)) ++ [x.sys.num]).Pairwise (· < ·) := by simpa using hl.1
  have hl2 : ∀ y ∈ xs ++ [x], 0 < y.sys.num ∧ y.sys.num < Dso.intMax := fun y hy => hl.2 _ (List.mem_map_of_mem (f := fun x : FrameIn G => x.sys.num) hy)
  obtain ⟨hi, -, -⟩ := run_inv hv h0 hn hs xs (inv_create h0 hc) (by simpa using (List.pairwise_append.1 hl1).1)
    (fun y hy => hl2 y (by simp [hy])) h
  simp only [List.nil_append] at hi
  refine next hv hn hs hi hx ⟨(hl2 x (by simp)).1, fun m hm => ?_⟩ (hl2 x (by simp)).2
  exact (List.pairwise_append.1 hl1).2.2 m hm _ (by simp)

theorem runs [Group G] {p : Params} (hv : Dso.Valid p.set) (h0 : 0 ≤ p.maxOptimizedPoints) (hn : DistMap.IsNthElement p.nth)
    (hs : Act.IsSort p.sort) : ∀ (xs : List (FrameIn G)) {s : State G} {ns : List Int}, Inv p s ns → (ns ++ xs.map (·.sys.num)).Pairwise (· < ·) →
      (∀ x ∈ xs, 0 < x.sys.num ∧ x.sys.num < Dso.intMax) → (∀ x ∈ xs, ∃ n, Fits p x n) →
      ∃ fuels : List Nat, fuels.length = xs.length ∧ ∃ s', run p s (List.zipWith FrameIn.withFuel xs fuels) = .ok (some s') := by
  intro xs
  induction xs with
  | nil => intro s ns _ _ _ _; exact ⟨[], rfl, s, rfl⟩
  | cons x xs ih =>
    intro s ns hi hp hb hf
    have hacc : Acceptable ns x.sys.num := by
      refine ⟨(hb x (by simp)).1, fun m hm => ?_⟩
      exact (List.pairwise_append.1 hp).2.2 m hm x.sys.num (by simp)
    have hm := (hb x (by simp)).2
    have hp' : ((ns ++ [x.sys.num]) ++ xs.map (·.sys.num)).Pairwise (· < ·) := by simpa using hp
    obtain ⟨n, hx⟩ := hf x (by simp)
    obtain ⟨N, hN⟩ := next hv hn hs hi hx hacc hm
    obtain ⟨s1, e1⟩ := hN N (le_refl _)
    obtain ⟨i1, -⟩ := step hv h0 hn hs hi (x := x.withFuel N) hacc hm e1
    obtain ⟨fuels, f1, s', f2⟩ := ih i1 hp' (fun y hy => hb y (by simp [hy])) (fun y hy => hf y (by simp [hy]))
    refine ⟨N :: fuels, by simp [f1], s', ?_⟩
    rw [List.zipWith_cons_cons, run, e1]
    exact f2

/-- **C169, whole histories.** Every legal history for which the distance map can work with the projected points can be run to its end. -/
theorem C169_runs [Group G] {p : Params} (hv : Dso.Valid p.set) (h0 : 0 ≤ p.maxOptimizedPoints) (hn : DistMap.IsNthElement p.nth)
    (hs : Act.IsSort p.sort) {s0 : State G} (hc : create p.set = .ok s0) {xs : List (FrameIn G)} (hl : Dso.Legal (xs.map (·.sys.num)))
    (hf : ∀ x ∈ xs, ∃ n, Fits p x n) :
    ∃ fuels : List Nat, fuels.length = xs.length ∧ ∃ s, run p s0 (List.zipWith FrameIn.withFuel xs fuels) = .ok (some s) :=
  runs hv h0 hn hs xs (inv_create h0 hc) (by simpa using hl.1) (by simpa using hl.2) hf

/-! ## Non-vacuity -/

/-- Every keyframe is made with two points, one of them ready; at most three points are to be optimized. -/
noncomputable def exParams : Params :=
  ⟨Dso.exSettings, 3, fun l _ => l.mergeSort (fun a b => decide (b.2 ≤ a.2)), fun l key => l.mergeSort (fun a b => decide (key b ≤ key a)),
    fun _ => [⟨(3, 4), 2, 1, .active⟩, ⟨(5, 5), 2, 1, .outlier⟩]⟩

/-- Frames with the given numbers, of size 960×604; tracing changes nothing, bundle adjustment finds every point to be an outlier. -/
noncomputable def exFrames (l : List Int) : List (FrameIn (Multiplicative Int)) :=
  (Dso.exCalls l).map fun x => ⟨x, fun _ ip => (ip.depth, ip.stddev, ip.state), ⟨960, 604, 0, fun _ _ _ => (100, 100), 10⟩, 0, fun _ op => (op.logInvDepth, .outlier)⟩

theorem exFits : ∀ x ∈ exFrames [1, 2, 3, 4, 5, 6, 7], Fits exParams x 2 := by
  intro x hx
  obtain ⟨y, -, rfl⟩ := List.mem_map.1 hx
  have hpyr : DistMap.pyrDown 960 604 ⟨480, 302⟩ = 2 := by
    have h1 : DistMap.divisor 960 480 = 2 := by
      refine le_antisymm ((DistMap.divisor_spec (by norm_num) (by norm_num) 2).2 (by norm_num)) ?_
      by_contra h
      have := (DistMap.divisor_spec (by norm_num) (by norm_num) 1).1 (show DistMap.divisor 960 480 ≤ 1 by omega)
      norm_num at this
    have h2 : DistMap.divisor 604 302 = 2 := by
      refine le_antisymm ((DistMap.divisor_spec (by norm_num) (by norm_num) 2).2 (by norm_num)) ?_
      by_contra h
      have := (DistMap.divisor_spec (by norm_num) (by norm_num) 1).1 (show DistMap.divisor 604 302 ≤ 1 by omega)
      norm_num at this
    unfold DistMap.pyrDown
    simp only [h1, h2]
    decide
  refine ⟨hpyr, by norm_num, by norm_num, by norm_num, ?_, ?_⟩
  · intro num ip hip
    simp only [exParams, List.mem_cons, List.not_mem_nil, or_false] at hip
    rcases hip with rfl | rfl <;> norm_num [DistMapSpec.OnImage]
  · intro k q d
    have f3 : ⌊(100 : ℝ) / 2⌋ = 50 := by norm_num [Int.floor_eq_iff]
    have : DistMap.cellOf 2 ((100 : ℝ), (100 : ℝ)) = (50, 50) := by
      rw [DistMap.cellOf_nonneg (by norm_num) (by norm_num)]
      simp [DistMapSpec.cell, f3]
    simp only [this]
    norm_num

theorem exNums (l : List Int) : (exFrames l).map (·.sys.num) = l := by
  simp [exFrames, Dso.exCalls, Function.comp_def]

theorem exLegal : Dso.Legal ((exFrames [1, 2, 3, 4, 5, 6, 7]).map (·.sys.num)) := by
  rw [exNums]
  exact ⟨by decide, by decide⟩

theorem exCreated : create exParams.set = .ok (⟨Dso.exState, [], []⟩ : State (Multiplicative Int)) := rfl

theorem nums_withFuel : ∀ (xs : List (FrameIn G)) (fuels : List Nat), fuels.length = xs.length →
    (List.zipWith FrameIn.withFuel xs fuels).map (·.sys.num) = xs.map (·.sys.num)
  | [], _, _ => rfl
  | x :: xs, [], h => by simp at h
  | x :: xs, f :: fuels, h => by
    rw [List.zipWith_cons_cons, List.map_cons, List.map_cons, nums_withFuel xs fuels (by simpa using h)]
    rfl

/-- A session of seven frames with four keyframes runs to its end: the two keyframes held have four points, of which at most three are optimized. -/
example : ∃ xs : List (FrameIn (Multiplicative Int)), xs.map (·.sys.num) = [1, 2, 3, 4, 5, 6, 7] ∧ ∃ s, run exParams ⟨Dso.exState, [], []⟩ xs = .ok (some s) ∧
    (everMade s).map Prod.fst = [1, 3, 5, 7] ∧ s.window.map Prod.fst = [5, 7] ∧ optimizedCount s.window ≤ 3 ∧ pointCount s.window ≤ 4 ∧
    ∀ e ∈ everMade s, (places e.2).Perm [(3, 4), (5, 5)] := by
  have hs : Act.IsSort exParams.sort := Act.mergeSort_isSort
  have hn : DistMap.IsNthElement exParams.nth := DistMap.sort_isNth
  obtain ⟨fuels, hf, s, h⟩ := C169_runs (p := exParams) Dso.exValid (by decide) hn hs exCreated exLegal fun x hx => ⟨2, exFits x hx⟩
  obtain ⟨xs, hxs⟩ : ∃ xs, xs = List.zipWith FrameIn.withFuel (exFrames [1, 2, 3, 4, 5, 6, 7]) fuels := ⟨_, rfl⟩
  have hnum : xs.map (·.sys.num) = [1, 2, 3, 4, 5, 6, 7] := by
    rw [hxs, nums_withFuel _ _ hf, exNums]
  rw [← hxs] at h
  have hl : Dso.Legal (xs.map (·.sys.num)) := by rw [hnum]; exact ⟨by decide, by decide⟩
  obtain ⟨c1, -, -, c4, c5, c6⟩ := C169_points (p := exParams) Dso.exValid (by decide) hn hs exCreated hl h
  have c7 := C169_bound (p := exParams) Dso.exValid (by decide) hn hs exCreated hl h (N := 2) (fun n => by simp [exParams])
  have c6' : (optimizedCount s.window : Int) ≤ 3 := c6
  rw [hnum] at c1
  have c1' : (everMade s).map Prod.fst = [1, 3, 5, 7] := by rw [c1]; decide
  refine ⟨xs, hnum, s, h, c1', ?_, by omega, c7, fun e he => by simpa [exParams] using c5 e he⟩
  have hlen : (everMade s).length = 4 := by simpa using congrArg List.length c1'
  have hw : s.window.length = 2 := by
    rw [c4, hlen]; rfl
  have hh : s.handed.length = 2 := by
    simp only [everMade, List.length_append] at hlen
    omega
  have := congrArg (List.drop 2) c1'
  rw [everMade, List.map_append, List.drop_left' (by simpa using hh)] at this
  exact this

theorem run_append [Group G] (p : Params) : ∀ (xs ys : List (FrameIn G)) (s : State G), run p s (xs ++ ys) = andThen (fun s' => run p s' ys) (run p s xs)
  | [], ys, s => rfl
  | x :: xs, ys, s => by
    rw [List.cons_append, run, run]
    cases addFrame p s x with
    | error e => rfl
    | ok o =>
      cases o with
      | none => rfl
      | some s1 => exact run_append p xs ys s1

/-- The same session, seen after five frames and at its end: what the first keyframes were then, they still are. -/
example : ∃ s s', everMade s ≠ [] ∧ s.handed <+: s'.handed ∧ ((everMade (G := Multiplicative Int) s').map Prod.fst).Nodup ∧
    ∀ e ∈ everMade (G := Multiplicative Int) s, ∃ e' ∈ everMade s', e'.1 = e.1 ∧ (places e'.2).Perm (places e.2) ∧ Grown e.2.optimized e'.2.optimized := by
  have hs : Act.IsSort exParams.sort := Act.mergeSort_isSort
  have hn : DistMap.IsNthElement exParams.nth := DistMap.sort_isNth
  obtain ⟨fuels, hf, s', h⟩ := C169_runs (p := exParams) Dso.exValid (by decide) hn hs exCreated exLegal fun x hx => ⟨2, exFits x hx⟩
  obtain ⟨zs, hzs⟩ : ∃ zs, zs = List.zipWith FrameIn.withFuel (exFrames [1, 2, 3, 4, 5, 6, 7]) fuels := ⟨_, rfl⟩
  have hnum : zs.map (·.sys.num) = [1, 2, 3, 4, 5, 6, 7] := by rw [hzs, nums_withFuel _ _ hf, exNums]
  rw [← hzs] at h
  have hcut := h
  rw [← List.take_append_drop 5 zs, run_append] at hcut
  obtain ⟨s, h1, h2⟩ := andThen_some hcut
  have hl : Dso.Legal ((zs.take 5 ++ zs.drop 5).map (·.sys.num)) := by
    rw [List.take_append_drop, hnum]; exact ⟨by decide, by decide⟩
  have hl5 : Dso.Legal ((zs.take 5).map (·.sys.num)) := by
    rw [List.map_take, hnum]; exact ⟨by decide, by decide⟩
  refine ⟨s, s', ?_, C169_stay Dso.exValid (by decide) hn hs exCreated hl h1 h2⟩
  have := (C169_points (p := exParams) Dso.exValid (by decide) hn hs exCreated hl5 h1).1
  rw [List.map_take, hnum] at this
  intro he
  rw [he] at this
  revert this
  decide

end Mdso.Life
