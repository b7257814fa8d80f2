import Verif.Lemmas.DsoSystem
import Verif.Spec.Session

/-!
# Lemmas about sessions
-/

set_option autoImplicit false

namespace Mdso.Session

open Mdso.Dso Mdso.Light Mdso.FrameSpec

variable {G : Type}

@[simp] theorem numbers_append (a b : List (Op G)) : numbers (a ++ b) = numbers a ++ numbers b := by simp [numbers]
@[simp] theorem registered_append (a b : List (Op G)) : registered (a ++ b) = registered a ++ registered b := by simp [registered]
@[simp] theorem numbers_frame (x : FrameInput G) : numbers [.frame x] = [x.num] := rfl
@[simp] theorem numbers_observer (o : Nat) : numbers (G := G) [.observer o] = [] := rfl
@[simp] theorem registered_frame (x : FrameInput G) : registered [.frame x] = [] := rfl
@[simp] theorem registered_observer (o : Nat) : registered (G := G) [.observer o] = [o] := rfl

theorem run_append [Group G] {set : Settings} (a b : List (Op G)) (s : State G) :
    run set s (a ++ b) = (run set s a).bind (fun s' => run set s' b) := by
  induction a generalizing s with
  | nil => rfl
  | cons o a ih =>
    simp only [List.cons_append, run]
    cases h : step set s o with
    | error e => rfl
    | ok s' => exact ih s'

theorem mem_framesOf {kfs : List (KeyFrame G)} {n : Int} :
    n ∈ framesOf kfs ↔ ∃ kf ∈ kfs, n = kf.num ∨ ∃ f ∈ kf.trackedFrames, n = f.num := by
  simp only [framesOf, List.mem_flatMap, List.mem_cons, List.mem_map]
  refine exists_congr fun kf => and_congr_right fun _ => or_congr_right ?_
  exact ⟨fun ⟨f, h1, h2⟩ => ⟨f, h1, h2.symm⟩, fun ⟨f, h1, h2⟩ => ⟨f, h1, h2.symm⟩⟩

/-- The base keyframe's number can be read off the book. -/
theorem base_num [Group G] {set : Settings} (hv : Valid set) {s : Dso.State G} {ns : List Int} (hi : Inv set s ns)
    (hl : (policyOf set).skip + 2 ≤ ns.length) {b : KeyFrame G} (hb : baseKeyFrame set s.keyFrames = .ok b) :
    baseOf (policyOf set) ns = some b.num := by
  obtain ⟨hW2, hWd, hBl, -, -⟩ := window_facts hv hi hl
  obtain ⟨b', h1, h2⟩ := baseKeyFrame_ok set hW2
  rw [hb] at h1
  cases h1
  have hk : s.keyFrames.map (·.num) =
      (FrameSpec.book (policyOf set) ns).keyFrames.drop (marginalizedOf s.log).length := by
    have := congrArg (List.map Prod.fst) hWd
    rw [List.map_drop] at this
    simpa [entry, Book.keyFrames, Function.comp_def] using this
  have hlen : (FrameSpec.book (policyOf set) ns).keyFrames.length = (FrameSpec.book (policyOf set) ns).length := by
    simp [Book.keyFrames]
  have h3 := congrArg (fun l => l[s.keyFrames.length - if set.trackFromLastKf then 1 else 2]?) hk
  simp only [List.getElem?_map, h2, Option.map_some, List.getElem?_drop] at h3
  unfold baseOf
  cases hf : set.trackFromLastKf with
  | true =>
    rw [show (policyOf set).fromLast = true from hf, if_pos rfl, List.getLast?_eq_getElem?, h3, hf]
    congr 1; simp; omega
  | false =>
    rw [show (policyOf set).fromLast = false from hf, if_neg (by simp), List.getLast?_eq_getElem?, List.getElem?_dropLast,
      if_pos (by simp; omega), h3, hf]
    congr 1; simp; omega

/-- Adding a frame to an initialized system: what happens to the base keyframe and to the frame's pose. -/
theorem track_detail [Group G] {set : Settings} (hv : Valid set) {s : Dso.State G} {ns : List Int} (hi : Inv set s ns) {x : FrameIn G}
    (ha : Acceptable ns x.num) (hm : x.num < intMax) (hl : (policyOf set).skip + 2 ≤ ns.length) :
    ∃ s' base need b', Dso.addFrame set s x = .ok (s', some x.num) ∧ Inv set s' (ns ++ [x.num]) ∧ s'.isInitialized = true ∧
      baseKeyFrame set s.keyFrames = .ok base ∧ doNeedKf set s.keyFrames x.num = .ok need ∧ baseKeyFrame set s'.keyFrames = .ok b' ∧
      ((need && set.continueChoosingKeyFrames) = false → b'.num = base.num ∧ b'.thisToWorld = base.thisToWorld ∧
        s'.worldToFrame x.num = some (x.track * base.thisToWorld⁻¹)) ∧
      ((need && set.continueChoosingKeyFrames) = true → b'.num ≠ base.num ∧ (set.trackFromLastKf = true → b'.num = x.num) ∧
        s'.worldToFrame x.num = some (if set.trackFromLastKf then b'.thisToWorld⁻¹ else (s'.worldToFrame x.num).getD 1)) := by
  obtain ⟨s', evs, e1, hi', -, -⟩ := step_track hv hi ha hm hl
  obtain ⟨hW2, hWd, hBl, hWns, hWnd⟩ := window_facts hv hi hl
  have hl' : (policyOf set).skip + 2 ≤ (ns ++ [x.num]).length := by simp; omega
  obtain ⟨hW2', hWd', hBl', hWns', hWnd'⟩ := window_facts hv hi' hl'
  obtain ⟨base, hb1, hb2⟩ := baseKeyFrame_ok set hW2
  obtain ⟨b', hb1', hb2'⟩ := baseKeyFrame_ok set hW2'
  have hini' : s'.isInitialized = true := by rw [hi'.initd]; simpa using hl'
  have hWne : s.keyFrames ≠ [] := by intro h; rw [h] at hW2; simp at hW2
  obtain ⟨last, hlast⟩ : ∃ last, s.keyFrames.getLast? = some last := ⟨_, List.getLast?_eq_some_getLast hWne⟩
  have hlastn : last.num < x.num :=
    ha.2 _ (hWns _ (mem_framesOf.2 ⟨last, List.mem_of_getLast? hlast, Or.inl rfl⟩))
  have hneed := doNeedKf_ok hv.shift hlast hlastn
  have hBlast : (FrameSpec.book (policyOf set) ns).getLast? = some (entry last) := by
    rw [← hi.book, List.map_append, List.getLast?_append, List.getLast?_map, hlast]; rfl
  refine ⟨s', base, _, b', e1, hi', hini', hb1, hneed, hb1', ?_, ?_⟩
  · intro hno
    obtain ⟨T, hT1, hT2, e⟩ := addFrame_eq (set := set) hi.frames ha hm
    have hni : s.isInitialized = true := by rw [hi.initd]; simpa using hl
    obtain ⟨pf, hpf⟩ := predictionFrames_ok (l := ns ++ [x.num]) (by simp; omega)
    have hn0 := ha.1
    rw [e, hni] at e1
    simp only [Bool.not_true, Bool.false_eq_true, if_false, addFrameTrack, hb1, hpf] at e1
    rw [writePose_ok ⟨by omega, hT2⟩] at e1
    simp only [hneed] at e1
    by_cases hdvd : set.shiftBetweenKeyFrames ∣ x.num - last.num
    · simp only [hdvd, decide_true, Bool.true_and] at hno
      simp only [hdvd, decide_true, Bool.not_true, Bool.false_eq_true, if_false, hno] at e1
      cases e1
      simp only at hb1'
      rw [hb1] at hb1'
      cases hb1'
      exact ⟨rfl, rfl, by simp⟩
    · simp only [hdvd, decide_false, Bool.not_false, if_true, pushTracked, baseIndex_ok set hW2] at e1
      cases e1
      simp only [List.length_modify, List.getElem?_modify, if_true, hb2] at hb2'
      cases hb2'
      exact ⟨rfl, rfl, by simp⟩
  · intro hyes
    simp only [Bool.and_eq_true, decide_eq_true_eq] at hyes
    have hbt : FrameSpec.book (policyOf set) (ns ++ [x.num]) = FrameSpec.book (policyOf set) ns ++ [(x.num, [])] := by
      rw [book_snoc hl]
      unfold track
      rw [hBlast]
      show (if set.shiftBetweenKeyFrames ∣ x.num - last.num then (if set.continueChoosingKeyFrames = true then _ else _) else _) = _
      rw [if_pos hyes.1, if_pos hyes.2]
    have n1 := base_num hv hi hl hb1
    have n2 := base_num hv hi' hl' hb1'
    have hk2 : (FrameSpec.book (policyOf set) (ns ++ [x.num])).keyFrames = (FrameSpec.book (policyOf set) ns).keyFrames ++ [x.num] := by
      rw [hbt]; simp [Book.keyFrames]
    have hbase_lt : ∀ m, m ∈ (FrameSpec.book (policyOf set) ns).keyFrames → m < x.num := by
      intro m hm
      refine ha.2 _ ((frames_subperm (p := policyOf set) (ns := ns)).subset ?_)
      simp only [Book.keyFrames, List.mem_map] at hm
      obtain ⟨en, he, rfl⟩ := hm
      simp only [Book.frames, List.mem_flatMap]
      exact ⟨en, he, by simp⟩
    unfold baseOf at n1 n2
    cases hf : set.trackFromLastKf with
    | true =>
      rw [show (policyOf set).fromLast = true from hf] at n1 n2
      simp only [if_true, hk2, List.getLast?_concat, Option.some.injEq] at n1 n2
      have := hbase_lt _ (List.mem_of_getLast? n1)
      refine ⟨by omega, fun _ => n2.symm, ?_⟩
      rw [if_pos rfl, n2]
      exact (hi'.poses b' (List.mem_of_getElem? hb2')).1
    | false =>
      rw [show (policyOf set).fromLast = false from hf] at n1 n2
      simp only [Bool.false_eq_true, if_false, hk2, List.dropLast_concat] at n1 n2
      have hlen := book_length (p := policyOf set) hl
      have hsorted := keyFrames_sorted (p := policyOf set) hi.sorted
      refine ⟨?_, by simp, ?_⟩
      · intro hcon
        have h3 : (FrameSpec.book (policyOf set) ns).keyFrames.dropLast ++ [b'.num] = (FrameSpec.book (policyOf set) ns).keyFrames :=
          List.dropLast_append_getLast? _ n2
        rw [← h3, List.pairwise_append] at hsorted
        have := hsorted.2.2 base.num (List.mem_of_getLast? n1) b'.num (by simp)
        omega
      · have hmem : x.num ∈ framesOf s'.keyFrames := by
          rw [framesOf_eq, hWd']
          simp only [Book.frames, List.mem_flatMap]
          refine ⟨(x.num, []), ?_, by simp⟩
          rw [hbt, List.drop_append_of_le_length]
          · simp
          · have := hBl'
            rw [hbt] at this
            simp at this
            omega
        obtain ⟨kf, hkf, hc⟩ := mem_framesOf.1 hmem
        have hp := hi'.poses kf hkf
        rcases hc with hc | ⟨f, hff, hc⟩
        · rw [hc, hp.1]; simp
        · rw [hc, hp.2 f hff]; simp

/-! ## The invariant -/

/-- What holds after any actions `ops`; `all` are the observers known when the constructor returns. -/
structure SInv [Group G] (set : Settings) (all : List Nat) (s : State G) (ops : List (Op G)) : Prop where
  dso : Inv set s.sys (numbers ops)
  obs : s.observers = all ++ registered ops
  trk : s.tracker = if s.sys.isInitialized then some s.observers else none
  nums : s.calls.map (·.num) = (numbers ops).drop ((policyOf set).skip + 2)
  light : s.lightKfToLast = (s.calls.getLast?.map (·.light)).getD .identity
  chain : ∀ i c, s.calls[i]? = some c →
    c.start = (((s.calls.take i).getLast?).map (·.light)).getD .identity ∧
    baseOf (policyOf set) ((numbers ops).take ((policyOf set).skip + 2 + i)) = some c.base
  told : ∀ pre x post, ops = pre ++ .frame x :: post → ∀ c ∈ s.calls, c.num = x.num → c.told = all ++ registered pre
  useful : ∀ c b, s.calls.getLast? = some c → baseKeyFrame set s.sys.keyFrames = .ok b →
    (b.num = c.base → s.sys.worldToFrame c.num = some (c.motion * b.thisToWorld⁻¹)) ∧
    (b.num ≠ c.base → set.trackFromLastKf = true → b.num = c.num ∧ s.sys.worldToFrame c.num = some b.thisToWorld⁻¹)

theorem sinv_create [Group G] {set : Settings} {given inCreated : List Nat} {s : State G} (h : create set given inCreated = .ok s) :
    SInv set (given ++ inCreated) s [] := by
  unfold create at h
  cases hc : Dso.create (G := G) set with
  | error e => rw [hc] at h; cases h
  | ok s0 =>
    rw [hc] at h
    cases h
    have hi := inv_create hc
    refine ⟨hi, by simp [registered], ?_, by simp [numbers], by simp, by simp, by simp, by simp⟩
    have : s0.isInitialized = false := by rw [hi.initd]; simp
    simp [this]

/-- A frame's number decides where in the actions it was added. -/
theorem told_snoc [Group G] {all : List Nat} {ops : List (Op G)} {x : FrameInput G} {calls : List (Call G)}
    (ha : Acceptable (numbers ops) x.num) (hsub : ∀ c ∈ calls, c.num ∈ numbers ops)
    (h : ∀ pre y post, ops = pre ++ .frame y :: post → ∀ c ∈ calls, c.num = y.num → c.told = all ++ registered pre)
    {extra : List (Call G)} (he : ∀ c ∈ extra, c.num = x.num ∧ c.told = all ++ registered ops) :
    ∀ pre y post, ops ++ [.frame x] = pre ++ .frame y :: post → ∀ c ∈ calls ++ extra, c.num = y.num → c.told = all ++ registered pre := by
  intro pre y post e c hc hn
  rcases List.eq_nil_or_concat post with rfl | ⟨post', z, rfl⟩
  · have := List.append_inj' e rfl
    obtain ⟨e1, e2⟩ := this
    cases e2
    subst e1
    rcases List.mem_append.1 hc with hc | hc
    · have := ha.2 _ (hsub c hc); omega
    · exact (he c hc).2
  · have e' : ops ++ [Op.frame x] = (pre ++ Op.frame y :: post') ++ [z] := by rw [e]; simp
    obtain ⟨e1, e2⟩ := List.append_inj' e' rfl
    rcases List.mem_append.1 hc with hc | hc
    · exact h pre y post' e1 c hc hn
    · have h1 : y.num ∈ numbers ops := by rw [e1]; simp [numbers]
      have := ha.2 _ h1
      have := (he c hc).1
      omega

theorem told_observer {all : List Nat} {ops : List (Op G)} {o : Nat} {calls : List (Call G)}
    (h : ∀ pre y post, ops = pre ++ .frame y :: post → ∀ c ∈ calls, c.num = y.num → c.told = all ++ registered pre) :
    ∀ pre y post, ops ++ [.observer o] = pre ++ .frame y :: post → ∀ c ∈ calls, c.num = y.num → c.told = all ++ registered pre := by
  intro pre y post e
  rcases List.eq_nil_or_concat post with rfl | ⟨post', z, rfl⟩
  · have := List.append_inj' e rfl
    obtain ⟨e1, e2⟩ := this
    cases e2
  · have e' : ops ++ [Op.observer o] = (pre ++ Op.frame y :: post') ++ [z] := by rw [e]; simp
    obtain ⟨e1, e2⟩ := List.append_inj' e' rfl
    exact h pre y post' e1

theorem step_observer [Group G] {set : Settings} {all : List Nat} {s : State G} {ops : List (Op G)} (h : SInv set all s ops) (o : Nat) :
    ∃ s', step set s (.observer o) = .ok s' ∧ SInv set all s' (ops ++ [.observer o]) := by
  refine ⟨_, rfl, ?_⟩
  have hn : numbers (ops ++ [Op.observer o]) = numbers ops := by simp
  refine ⟨by rw [hn]; exact h.dso, ?_, ?_, by rw [hn]; exact h.nums, h.light, by rw [hn]; exact h.chain, told_observer h.told, h.useful⟩
  · simp [addFrameTrackerObserver, h.obs]
  · simp only [addFrameTrackerObserver, h.trk]
    split <;> simp

theorem calls_num_mem [Group G] {set : Settings} {all : List Nat} {s : State G} {ops : List (Op G)} (h : SInv set all s ops) :
    ∀ c ∈ s.calls, c.num ∈ numbers ops := by
  intro c hc
  have : c.num ∈ s.calls.map (·.num) := List.mem_map_of_mem hc
  rw [h.nums] at this
  exact List.mem_of_mem_drop this

theorem step_frame [Group G] {set : Settings} (hv : Valid set) {all : List Nat} {s : State G} {ops : List (Op G)} (h : SInv set all s ops)
    {x : FrameInput G} (ha : Acceptable (numbers ops) x.num) (hm : x.num < intMax) :
    ∃ s', step set s (.frame x) = .ok s' ∧ SInv set all s' (ops ++ [.frame x]) := by
  have hn : numbers (ops ++ [Op.frame x]) = numbers ops ++ [x.num] := by simp
  have hreg : registered (ops ++ [Op.frame x]) = registered ops := by simp
  by_cases hl : (policyOf set).skip + 2 ≤ (numbers ops).length
  · -- tracking
    have hini : s.sys.isInitialized = true := by rw [h.dso.initd]; simpa using hl
    obtain ⟨sys, base, need, b', e1, hi', hini', hb, hnd, hb', hno, hyes⟩ := track_detail hv h.dso
      (x := ⟨x.num, x.stereo, (x.track s.lightKfToLast).1, x.ba⟩) ha hm hl
    have htrk : s.tracker = some s.observers := by rw [h.trk, hini]; rfl
    have hlen : s.calls.length + ((policyOf set).skip + 2) = (numbers ops).length := by
      have := congrArg List.length h.nums
      simp at this
      omega
    refine ⟨?w, ?e, ?i⟩
    case e =>
      simp only [step, hini, Bool.not_true, Bool.false_eq_true, if_false, frameTrack, htrk, hb, hnd, e1]
      rfl
    case i =>
      refine ⟨by rw [hn]; exact hi', ?_, ?_, ?_, ?_, ?_, ?_, ?_⟩
      · rw [hreg]; exact h.obs
      · simp only [hini', if_true]
        split
        · rfl
        · rfl
      · simp only [List.map_append, h.nums, List.map_cons, List.map_nil, hn]
        rw [List.drop_append_of_le_length hl]
      · simp
      · intro i c hc
        rw [hn]
        by_cases hi : i < s.calls.length
        · rw [List.getElem?_append_left hi] at hc
          have := h.chain i c hc
          rw [List.take_append_of_le_length (by omega), List.take_append_of_le_length (by omega)]
          exact this
        · have hie : i = s.calls.length := by
            have := (List.getElem?_eq_some_iff.1 hc).1
            simp at this
            omega
          subst hie
          simp only [List.getElem?_concat_length, Option.some.injEq] at hc
          subst hc
          simp only [List.take_left']
          refine ⟨h.light, ?_⟩
          rw [List.take_append_of_le_length (by omega), List.take_of_length_le (by omega)]
          exact base_num hv h.dso hl hb
      · refine told_snoc ha (calls_num_mem h) h.told ?_
        intro c hc
        simp only [List.mem_singleton] at hc
        subst hc
        exact ⟨rfl, h.obs⟩
      · intro c b hc hb2
        simp only [List.getLast?_concat, Option.some.injEq] at hc
        subst hc
        simp only at hb2 ⊢
        rw [hb'] at hb2
        cases hb2
        cases hk : (need && set.continueChoosingKeyFrames) with
        | false =>
          obtain ⟨h1, h2, h3⟩ := hno hk
          refine ⟨fun _ => by rw [h2]; exact h3, fun hne => absurd h1 hne⟩
        | true =>
          obtain ⟨h1, h2, h3⟩ := hyes hk
          refine ⟨fun he => absurd he h1, fun _ hf => ⟨h2 hf, ?_⟩⟩
          rw [if_pos hf] at h3
          exact h3
  · -- initialization
    have hini : s.sys.isInitialized = false := by rw [h.dso.initd]; simpa using hl
    have hcalls : s.calls = [] := by
      have := congrArg List.length h.nums
      simp at this
      exact List.eq_nil_of_length_eq_zero (by omega)
    have key : ∃ sys r, Dso.addFrame set s.sys ⟨x.num, x.stereo, 1, x.ba⟩ = .ok (sys, r) ∧ Inv set sys (numbers ops ++ [x.num]) := by
      by_cases hl1 : (numbers ops).length < (policyOf set).skip + 1
      · obtain ⟨s', e, hi', -⟩ := step_skip h.dso (x := ⟨x.num, x.stereo, 1, x.ba⟩) ha hm hl1
        exact ⟨s', _, e, hi'⟩
      · obtain ⟨s', k0, k1, b, e, hi', -⟩ := step_init hv h.dso (x := ⟨x.num, x.stereo, 1, x.ba⟩) ha hm (by omega)
        exact ⟨s', _, e, hi'⟩
    obtain ⟨sys, r, e1, hi'⟩ := key
    refine ⟨?w2, ?e2, ?i2⟩
    case e2 =>
      simp only [step, hini, Bool.not_false, if_true, frameInit, e1]
      rfl
    case i2 =>
      refine ⟨by rw [hn]; exact hi', ?_, ?_, ?_, h.light, ?_, ?_, ?_⟩
      · rw [hreg]; exact h.obs
      · simp only
        split
        · rfl
        · rw [h.trk, hini]; rfl
      · simp only [hcalls, hn, List.map_nil]
        rw [List.drop_eq_nil_of_le (by simp; omega)]
      · simp [hcalls]
      · simp [hcalls]
      · simp [hcalls]

theorem run_sinv [Group G] {set : Settings} (hv : Valid set) {all : List Nat} : ∀ (ops' : List (Op G)) {s : State G} {ops : List (Op G)},
    SInv set all s ops → (numbers (ops ++ ops')).Pairwise (· < ·) → (∀ n ∈ numbers ops', 0 < n ∧ n < intMax) →
    ∃ s', run set s ops' = .ok s' ∧ SInv set all s' (ops ++ ops') := by
  intro ops'
  induction ops' with
  | nil => intro s ops h _ _; exact ⟨s, rfl, by simpa using h⟩
  | cons o rest ih =>
    intro s ops h hp hb
    have e : ops ++ o :: rest = ops ++ [o] ++ rest := by simp
    have key : ∃ s', step set s o = .ok s' ∧ SInv set all s' (ops ++ [o]) := by
      cases o with
      | observer o => exact step_observer h o
      | frame x =>
        refine step_frame hv h ⟨(hb x.num (by simp [numbers])).1, ?_⟩ (hb x.num (by simp [numbers])).2
        intro m hm
        rw [numbers_append, List.pairwise_append] at hp
        exact hp.2.2 m hm x.num (by simp [numbers])
    obtain ⟨s1, e1, h1⟩ := key
    obtain ⟨s2, e2, h2⟩ := ih h1 (by rw [← e]; exact hp) (fun n hn => hb n (by simp only [numbers, List.flatMap_cons, List.mem_append] at hn ⊢; exact Or.inr hn))
    refine ⟨s2, ?_, by rw [e]; exact h2⟩
    simp only [run, e1, e2]

theorem run_create [Group G] {set : Settings} (hv : Valid set) {given inCreated : List Nat} {s0 : State G}
    (hc : create set given inCreated = .ok s0) {ops : List (Op G)} (hl : Legal (numbers ops)) :
    ∃ s, run set s0 ops = .ok s ∧ SInv set (given ++ inCreated) s ops := by
  obtain ⟨s, e, h⟩ := run_sinv hv ops (sinv_create hc) (by simpa using hl.1) hl.2
  exact ⟨s, e, by simpa using h⟩

end Mdso.Session
