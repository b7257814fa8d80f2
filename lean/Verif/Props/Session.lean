import Verif.Lemmas.Session
import Verif.Props.DsoSystem
import Verif.Props.Resume

/-!
# Properties of sessions: C103–C106
-/

set_option autoImplicit false

namespace Mdso.Session

open Mdso.Dso Mdso.Light Mdso.FrameSpec Mdso.ResumeSpec

variable {G : Type}

/-! ## A concrete session used in the non-vacuity examples -/

/-- A frame whose tracking finds the motion `n` and the light `⟨1, 0⟩`, whatever it starts from. -/
def exFrame (n : Int) : Op (Multiplicative Int) :=
  .frame
    { num := n, stereo := Multiplicative.ofAdd 5, track := fun _ => (Multiplicative.ofAdd n, ⟨1, 0⟩)
      ba := fun k => Multiplicative.ofAdd (k + 100), baLight := fun _ => .identity }

/-- Seven frames; an observer is registered between two of them. -/
def exOps : List (Op (Multiplicative Int)) :=
  [exFrame 1, exFrame 2, exFrame 3, exFrame 4, .observer 9, exFrame 5, exFrame 6, exFrame 7]

def exSession : State (Multiplicative Int) :=
  { sys := exState, lightKfToLast := .identity, lights := fun _ => .identity, observers := [7, 8], tracker := none, calls := [] }

theorem exSession_created : create exSettings [7] [8] = .ok exSession := rfl

theorem exOps_legal : Legal (numbers exOps) := ⟨by decide, by decide⟩

/-! ## C103 -/

theorem drawer_base (log : List (Event G)) : (Drawer.after log).baseFrame = (announcedOf log).getLast? ∧
    (Drawer.after log).lastFrame = (newFramesOf log).getLast? := by
  rw [← List.reverse_reverse log]
  generalize log.reverse = r
  induction r with
  | nil => exact ⟨rfl, rfl⟩
  | cons e r ih =>
    rw [List.reverse_cons, announcedOf_append, newFramesOf_append]
    unfold Drawer.after at ih ⊢
    rw [List.foldl_append]
    simp only [List.foldl_cons, List.foldl_nil]
    cases e <;> simp [Drawer.observe, announcedOf, newFramesOf] at ih ⊢ <;> simp [ih]

/-- C103, the base keyframe: between any two calls the keyframe an observer was told last is the one frames are currently tracked against,
and the system holds it. Before initialization nothing has been announced. -/
theorem C103_base [Group G] {set : Settings} (hv : Valid set) {s0 : Dso.State G} (hc : Dso.create set = .ok s0) {xs : List (FrameIn G)}
    (hl : Legal (xs.map (·.num))) :
    ∃ s rs, Dso.run set s0 xs = .ok (s, rs) ∧
      (xs.length < set.firstFramesSkip.toNat + 2 → Drawer.after s.log = ⟨none, none⟩) ∧
      (set.firstFramesSkip.toNat + 2 ≤ xs.length → ∃ base, baseKeyFrame set s.keyFrames = .ok base ∧
        (Drawer.after s.log).baseFrame = some base.num ∧ base ∈ s.keyFrames) := by
  obtain ⟨s, rs, e, hi, -⟩ := Dso.run_create hv hc hl.1 (by simpa using hl.2)
  refine ⟨s, rs, e, ?_, ?_⟩
  · intro h
    rw [(hi.ini (by simpa [policyOf] using h)).1]; rfl
  · intro h
    have hlen : (policyOf set).skip + 2 ≤ (xs.map (·.num)).length := by simpa [policyOf] using h
    obtain ⟨hW2, -⟩ := window_facts hv hi hlen
    obtain ⟨base, h1, h2⟩ := baseKeyFrame_ok set hW2
    refine ⟨base, h1, ?_, List.mem_of_getElem? h2⟩
    rw [(drawer_base _).1, hi.announced, ← base_num hv hi hlen h1]
    have hbl := book_length (p := policyOf set) hlen
    have hk : (book (policyOf set) (xs.map (·.num))).keyFrames.length = (book (policyOf set) (xs.map (·.num))).length := by
      simp [Book.keyFrames]
    unfold baseOf
    cases hf : set.trackFromLastKf with
    | true =>
      rw [show (policyOf set).fromLast = true from hf, if_pos rfl, if_pos rfl, List.getLast?_eq_getElem?, List.getLast?_eq_getElem?,
        List.getElem?_drop]
      congr 1
      simp
      omega
    | false =>
      rw [show (policyOf set).fromLast = false from hf, if_neg (by simp), if_neg (by simp)]

example := C103_base (G := Multiplicative Int) exValid exState_created exLegal

/-- C103, the last frame: the frame an observer was told last is still held by the system, unless no more keyframes are chosen and its
distance from the newest keyframe is a multiple of `shiftBetweenKeyFrames`. -/
theorem C103_last_partial [Group G] {set : Settings} (hv : Valid set) {s0 : Dso.State G} (hc : Dso.create set = .ok s0)
    {xs : List (FrameIn G)} (hl : Legal (xs.map (·.num))) :
    ∃ s rs, Dso.run set s0 xs = .ok (s, rs) ∧
      ∀ n newest, (Drawer.after s.log).lastFrame = some n → s.keyFrames.getLast? = some newest →
        (Alive s n ↔ set.continueChoosingKeyFrames = true ∨ ¬ set.shiftBetweenKeyFrames ∣ n - newest.num) := by
  obtain ⟨s, rs, e, hi, -⟩ := Dso.run_create hv hc hl.1 (by simpa using hl.2)
  refine ⟨s, rs, e, ?_⟩
  intro n newest hlast hnew
  rw [(drawer_base _).2, hi.newFrames] at hlast
  obtain ⟨ns, hns⟩ : ∃ ns, xs.map (·.num) = ns := ⟨_, rfl⟩
  rw [hns] at hlast hi
  rcases List.eq_nil_or_concat ns with rfl | ⟨l, m, rfl⟩
  · simp at hlast
  have hlen : (policyOf set).skip + 2 ≤ l.length := by
    by_contra hcon
    rw [List.drop_eq_nil_of_le (by simp; omega)] at hlast
    simp at hlast
  rw [List.concat_eq_append] at hlast hi
  rw [List.drop_append_of_le_length hlen, List.getLast?_concat] at hlast
  cases hlast
  have hlen' : (policyOf set).skip + 2 ≤ (l ++ [n]).length := by simp; omega
  obtain ⟨hW2, hWd, hBl, -, -⟩ := window_facts hv hi hlen'
  have hsn := book_snoc (n := n) hlen
  have hbl := book_length (p := policyOf set) hlen
  have hal : Alive s n ↔ n ∈ framesOf s.keyFrames := mem_framesOf.symm
  rw [hal, framesOf_eq, hWd]
  have hnl : n ∉ l := by
    intro hcon
    have := (List.pairwise_append.1 hi.sorted).2.2 n hcon n (by simp)
    omega
  have hnb : n ∉ (book (policyOf set) l).frames := fun h => hnl ((frames_subperm (p := policyOf set)).subset h)
  have hnewb : (book (policyOf set) (l ++ [n])).getLast? = some (entry newest) := by
    rw [← hi.book, List.map_append, List.getLast?_append, List.getLast?_map, hnew]; rfl
  cases hb : (book (policyOf set) l).getLast? with
  | none =>
    rw [List.getLast?_eq_none_iff] at hb
    rw [hb] at hbl
    simp at hbl
  | some old =>
    obtain ⟨o, fs⟩ := old
    unfold track at hsn
    rw [hb] at hsn
    simp only at hsn
    by_cases hd : (policyOf set).shift ∣ n - o
    · rw [if_pos hd] at hsn
      cases hch : set.continueChoosingKeyFrames with
      | true =>
        rw [show (policyOf set).choose = true from hch, if_pos rfl] at hsn
        refine ⟨fun _ => Or.inl rfl, fun _ => ?_⟩
        rw [hsn, List.drop_append_of_le_length (by rw [hsn] at hBl; simp at hBl; omega)]
        simp [Book.frames]
      | false =>
        rw [show (policyOf set).choose = false from hch, if_neg (by simp)] at hsn
        rw [hsn, hb] at hnewb
        cases hnewb
        refine ⟨fun hmem => ?_, fun hcase => ?_⟩
        · exfalso
          rw [hsn] at hmem
          apply hnb
          simp only [Book.frames, List.mem_flatMap] at hmem ⊢
          obtain ⟨en, h1, h2⟩ := hmem
          exact ⟨en, List.mem_of_mem_drop h1, h2⟩
        · rcases hcase with hcase | hcase
          · cases hcase
          · exact absurd hd hcase
    · rw [if_neg hd] at hsn
      have hmem : n ∈ Book.frames ((book (policyOf set) (l ++ [n])).drop (marginalizedOf s.log).length) := by
        rw [hsn]
        have hB : (book (policyOf set) l).length = (marginalizedOf s.log).length + s.keyFrames.length := by
          rw [hsn, attach_length] at hBl; exact hBl
        obtain ⟨i, hie⟩ : ∃ i, i = (book (policyOf set) l).length - (if (policyOf set).fromLast then 1 else 2) := ⟨_, rfl⟩
        have hi2 : (marginalizedOf s.log).length ≤ i ∧ i < (book (policyOf set) l).length := by
          rw [hie]; split <;> omega
        have hget : (attach (policyOf set).fromLast (book (policyOf set) l) n)[i]?
            = some (((book (policyOf set) l)[i].1, (book (policyOf set) l)[i].2 ++ [n])) := by
          unfold attach
          rw [← hie, List.getElem?_modify, List.getElem?_eq_getElem hi2.2]
          simp
        simp only [Book.frames, List.mem_flatMap]
        refine ⟨((book (policyOf set) l)[i].1, (book (policyOf set) l)[i].2 ++ [n]), ?_, ?_⟩
        · refine List.mem_of_getElem? (i := i - (marginalizedOf s.log).length) ?_
          rw [List.getElem?_drop, ← hget]
          congr 1
          omega
        · simp
      refine ⟨fun _ => Or.inr ?_, fun _ => hmem⟩
      have hkf : newest.num = o := by
        have h1 := congrArg (List.getLast?) (attach_keyFrames (book (policyOf set) l) (policyOf set).fromLast n)
        rw [← hsn, getLast?_keyFrames, getLast?_keyFrames, hnewb, hb] at h1
        simpa [entry] using h1
      rw [hkf]
      exact hd

example := C103_last_partial (G := Multiplicative Int) exValid exState_created exLegal

/-- C103 is violated: if no more keyframes are chosen, a frame at such a distance is held by nobody after the call that announced it, while
`DebugImageDrawer` keeps its address. -/
theorem C103_dropped_violated :
    ∃ set : Settings, Valid set ∧ set.continueChoosingKeyFrames = false ∧
      ∃ s0 : Dso.State (Multiplicative Int), Dso.create set = .ok s0 ∧
      ∃ s rs, Dso.run set s0 (exCalls [1, 2, 3, 4, 5]) = .ok (s, rs) ∧
        (Drawer.after s.log).lastFrame = some 5 ∧ ¬ Alive s 5 := by
  refine ⟨{ exSettings with continueChoosingKeyFrames := false }, ⟨by decide, by decide⟩, rfl, _, rfl, _, _, rfl, rfl, ?_⟩
  rintro ⟨kf, hkf, h⟩
  have hfr : (5 : Int) ∈ framesOf _ := mem_framesOf.2 ⟨kf, hkf, h⟩
  revert hfr
  decide

/-! ## C104 -/

/-- C104: the tracker is called once for every frame after initialization, in order, with the keyframe that frames belong to at that time. -/
theorem C104_calls [Group G] {set : Settings} (hv : Valid set) {given inCreated : List Nat} {s0 : State G}
    (hc : create set given inCreated = .ok s0) {ops : List (Op G)} (hl : Legal (numbers ops)) :
    ∃ s, run set s0 ops = .ok s ∧ s.calls.map (·.num) = (numbers ops).drop (set.firstFramesSkip.toNat + 2) ∧
      (∀ i c, s.calls[i]? = some c →
        baseOf (policyOf set) ((numbers ops).take (set.firstFramesSkip.toNat + 2 + i)) = some c.base) ∧
      (∀ c, s.calls.head? = some c → c.start = .identity) := by
  obtain ⟨s, e, h⟩ := run_create hv hc hl
  refine ⟨s, e, h.nums, fun i c hi => (h.chain i c hi).2, fun c hh => ?_⟩
  rw [List.head?_eq_getElem?] at hh
  simpa using (h.chain 0 c hh).1

example := C104_calls exValid exSession_created exOps_legal

theorem start_eq [Group G] {set : Settings} {all : List Nat} {s : State G} {ops : List (Op G)} (h : SInv set all s ops) {i : Nat}
    {c c' : Call G} (hi : s.calls[i]? = some c) (hi' : s.calls[i + 1]? = some c') : c'.start = c.light := by
  have h1 := (h.chain (i + 1) c' hi').1
  have hlt : i < s.calls.length := (List.getElem?_eq_some_iff.1 hi).1
  rw [List.take_add_one, hi] at h1
  simpa using h1

/-- C104: tracking a frame against the same keyframe as the frame before it starts from the light found for that frame. -/
theorem C104_same_base_partial [Group G] {set : Settings} (hv : Valid set) {given inCreated : List Nat} {s0 : State G}
    (hc : create set given inCreated = .ok s0) {ops : List (Op G)} (hl : Legal (numbers ops)) :
    ∃ s, run set s0 ops = .ok s ∧ ∀ i c c', s.calls[i]? = some c → s.calls[i + 1]? = some c' → c'.base = c.base →
      LightFromTo s.calls c'.base c.num c'.start := by
  obtain ⟨s, e, h⟩ := run_create hv hc hl
  refine ⟨s, e, fun i c c' hi hi' hb => Or.inr ⟨c, List.mem_of_getElem? hi, hb.symm, rfl, (start_eq h hi hi').symm⟩⟩

example := C104_same_base_partial exValid exSession_created exOps_legal

theorem baseOf_snoc {p : Policy} (hf : p.fromLast = true) {l : List Int} {n : Int} (hl : p.skip + 2 ≤ l.length) :
    baseOf p (l ++ [n]) = baseOf p l ∨ baseOf p (l ++ [n]) = some n := by
  unfold baseOf
  rw [hf, if_pos rfl, if_pos rfl, book_snoc hl]
  unfold track
  split
  · exact Or.inl rfl
  · split
    · split
      · right; simp [Book.keyFrames]
      · exact Or.inl rfl
    · rw [attach_keyFrames]; exact Or.inl rfl

theorem baseOf_lt {p : Policy} {l : List Int} {b : Int} (h : baseOf p l = some b) : b ∈ l := by
  have hm : b ∈ (book p l).keyFrames := by
    unfold baseOf at h
    split at h
    · exact List.mem_of_getLast? h
    · exact List.dropLast_subset _ (List.mem_of_getLast? h)
  apply (frames_subperm (p := p) (ns := l)).subset
  simp only [Book.keyFrames, List.mem_map] at hm
  obtain ⟨en, he, rfl⟩ := hm
  simp only [Book.frames, List.mem_flatMap]
  exact ⟨en, he, by simp⟩

/-- C104, when frames are tracked against the newest keyframe: the light a search starts from is right exactly if the keyframe has not changed
since the frame before, or the light found for that frame was the identity by chance. -/
theorem C104_newest_partial [Group G] {set : Settings} (hv : Valid set) (hf : set.trackFromLastKf = true) {given inCreated : List Nat}
    {s0 : State G} (hc : create set given inCreated = .ok s0) {ops : List (Op G)} (hl : Legal (numbers ops)) :
    ∃ s, run set s0 ops = .ok s ∧ ∀ i c c', s.calls[i]? = some c → s.calls[i + 1]? = some c' →
      (LightFromTo s.calls c'.base c.num c'.start ↔ c'.base = c.base ∨ c.light = .identity) := by
  obtain ⟨s, e, h⟩ := run_create hv hc hl
  refine ⟨s, e, fun i c c' hi hi' => ?_⟩
  have hst := start_eq h hi hi'
  obtain ⟨k, hk⟩ : ∃ k, k = (policyOf set).skip + 2 := ⟨_, rfl⟩
  have b1 := (h.chain i c hi).2
  have b2 := (h.chain (i + 1) c' hi').2
  rw [← hk] at b1 b2
  have hnum : (numbers ops)[k + i]? = some c.num := by
    have := congrArg (fun l => l[i]?) h.nums
    simp only [List.getElem?_map, hi, Option.map_some, List.getElem?_drop, ← hk] at this
    exact this.symm
  have hlt := (List.getElem?_eq_some_iff.1 hnum).1
  have htake : (numbers ops).take (k + (i + 1)) = (numbers ops).take (k + i) ++ [c.num] := by
    rw [← Nat.add_assoc, List.take_add_one, hnum]; rfl
  rw [htake] at b2
  have hcases : c'.base = c.base ∨ c'.base = c.num := by
    rcases baseOf_snoc (p := policyOf set) hf (l := (numbers ops).take (k + i)) (n := c.num) (by simp; omega) with hh | hh
    · rw [hh, b1] at b2; exact Or.inl (Option.some.inj b2).symm
    · rw [hh] at b2; exact Or.inr (Option.some.inj b2).symm
  have hbc : c.base ≠ c.num := by
    have h1 := baseOf_lt b1
    have hs := hl.1
    rw [← List.take_append_drop (k + i) (numbers ops), List.pairwise_append] at hs
    have := hs.2.2 c.base h1 c.num (by
      refine List.mem_of_getElem? (i := 0) ?_
      rw [List.getElem?_drop]; simpa using hnum)
    omega
  constructor
  · rintro (⟨-, h2⟩ | ⟨d, hd, hdb, hdn, -⟩)
    · exact Or.inr (by rw [← hst, h2])
    · left
      have hnd : (s.calls.map (·.num)).Nodup := by
        rw [h.nums]
        exact (List.Pairwise.sublist (List.drop_sublist _ _) hl.1).imp (fun h => by omega)
      have : d = c := List.inj_on_of_nodup_map hnd hd (List.mem_of_getElem? hi) hdn
      rw [← this, hdb]
  · rintro (hb | hid)
    · exact Or.inr ⟨c, List.mem_of_getElem? hi, hb.symm, rfl, hst.symm⟩
    · rcases hcases with hb | hb
      · exact Or.inr ⟨c, List.mem_of_getElem? hi, hb.symm, rfl, hst.symm⟩
      · exact Or.inl ⟨hb, by rw [hst, hid]⟩

example := C104_newest_partial exValid rfl exSession_created exOps_legal

/-- C104 is violated: frame 5 becomes the new base keyframe; frame 6 is then tracked against frame 5, starting from the light between frames 3
and 5. -/
theorem C104_new_keyframe_violated :
    ∃ s, run exSettings exSession exOps = .ok s ∧ ∃ c c', s.calls[1]? = some c ∧ s.calls[2]? = some c' ∧
      c.num = 5 ∧ c.base = 3 ∧ c'.num = 6 ∧ c'.base = 5 ∧ c'.start = c.light ∧ c.light = ⟨1, 0⟩ ∧
      ¬ LightFromTo s.calls c'.base c.num c'.start := by
  obtain ⟨s, e, h⟩ := C104_newest_partial exValid rfl exSession_created exOps_legal
  have e' := e
  simp only [exOps, exFrame] at e
  have hs : run exSettings exSession exOps = .ok _ := rfl
  rw [hs] at e'
  cases e'
  refine ⟨_, rfl, _, _, rfl, rfl, rfl, rfl, rfl, rfl, rfl, rfl, ?_⟩
  rw [h 1 _ _ rfl rfl]
  rintro (hh | hh)
  · exact absurd hh (by decide)
  · have := congrArg AffLight.a hh
    simp [AffLight.identity] at this

/-! ## C105 -/

/-- C105: the motion with which `DebugImageDrawer` moves the points of the current base keyframe into the last frame is the motion between the
two, if no keyframe has been added since that frame was tracked. -/
theorem C105_same_base_partial [Group G] {set : Settings} (hv : Valid set) {given inCreated : List Nat} {s0 : State G}
    (hc : create set given inCreated = .ok s0) {ops : List (Op G)} (hl : Legal (numbers ops)) :
    ∃ s, run set s0 ops = .ok s ∧ ∀ c base, s.calls.getLast? = some c → baseKeyFrame set s.sys.keyFrames = .ok base →
      c.base = base.num → ∃ worldToLast, s.sys.worldToFrame c.num = some worldToLast ∧
        baseToLast s = some (worldToLast * base.thisToWorld) := by
  obtain ⟨s, e, h⟩ := run_create hv hc hl
  refine ⟨s, e, fun c base h1 h2 h3 => ⟨_, (h.useful c base h1 h2).1 h3.symm, ?_⟩⟩
  simp [baseToLast, h1]

example := C105_same_base_partial exValid exSession_created exOps_legal

/-- C105, when frames are tracked against the newest keyframe: the motion is right exactly if no keyframe has been added since, or there was no
motion. -/
theorem C105_newest_partial [Group G] {set : Settings} (hv : Valid set) (hf : set.trackFromLastKf = true) {given inCreated : List Nat}
    {s0 : State G} (hc : create set given inCreated = .ok s0) {ops : List (Op G)} (hl : Legal (numbers ops)) :
    ∃ s, run set s0 ops = .ok s ∧ ∀ c base, s.calls.getLast? = some c → baseKeyFrame set s.sys.keyFrames = .ok base →
      ∃ worldToLast, s.sys.worldToFrame c.num = some worldToLast ∧
        (baseToLast s = some (worldToLast * base.thisToWorld) ↔ c.base = base.num ∨ c.motion = 1) := by
  obtain ⟨s, e, h⟩ := run_create hv hc hl
  refine ⟨s, e, fun c base h1 h2 => ?_⟩
  have hu := h.useful c base h1 h2
  by_cases hb : base.num = c.base
  · refine ⟨_, hu.1 hb, ?_⟩
    simp [baseToLast, h1, hb]
  · obtain ⟨-, h4⟩ := hu.2 hb hf
    refine ⟨_, h4, ?_⟩
    have hb' : ¬ c.base = base.num := fun h => hb h.symm
    simp [baseToLast, h1, hb']

example := C105_newest_partial exValid rfl exSession_created exOps_legal

/-- C105 is violated: after frame 7 has become a keyframe, its own points are drawn as if it were 7 units away from itself. -/
theorem C105_after_keyframe_violated :
    ∃ s, run exSettings exSession exOps = .ok s ∧ ∃ base, baseKeyFrame exSettings s.sys.keyFrames = .ok base ∧ base.num = 7 ∧
      (s.calls.getLast?.map (·.num)) = some 7 ∧ baseToLast s = some (Multiplicative.ofAdd 7) ∧
      (s.sys.worldToFrame 7).map (· * base.thisToWorld) = some 1 :=
  ⟨_, rfl, _, rfl, rfl, rfl, rfl, rfl⟩

/-! ## C106 -/

/-- C106, for a new system: whenever a frame is tracked, exactly the tracker observers given to the constructor, those registered while
`created` was called, and those registered since are told, each as often as it was registered and in this order. -/
theorem C106_new_partial [Group G] {set : Settings} (hv : Valid set) {given inCreated : List Nat} {s0 : State G}
    (hc : create set given inCreated = .ok s0) {ops : List (Op G)} (hl : Legal (numbers ops)) :
    ∃ s, run set s0 ops = .ok s ∧ ∀ pre x post, ops = pre ++ .frame x :: post →
      set.firstFramesSkip.toNat + 2 ≤ (numbers pre).length →
      ∃ c ∈ s.calls, c.num = x.num ∧ c.told = given ++ inCreated ++ registered pre := by
  obtain ⟨s, e, h⟩ := run_create hv hc hl
  refine ⟨s, e, fun pre x post hop hlen => ?_⟩
  have hmem : x.num ∈ s.calls.map (·.num) := by
    rw [h.nums, hop, numbers_append, List.drop_append_of_le_length (by simpa [policyOf] using hlen)]
    simp [numbers]
  obtain ⟨c, hc1, hc2⟩ := List.mem_map.1 hmem
  exact ⟨c, hc1, hc2, h.told pre x post hop c hc1 hc2⟩

example := C106_new_partial exValid exSession_created exOps_legal
example : ∃ s, run exSettings exSession exOps = .ok s ∧ s.calls.map (fun c => (c.num, c.told)) =
    [(4, [7, 8]), (5, [7, 8, 9]), (6, [7, 8, 9]), (7, [7, 8, 9])] := ⟨_, rfl, rfl⟩

/-- Successful steps keep the list of observers. -/
theorem step_observers [Group G] {set : Settings} {s s' : State G} {o : Op G} (h : step set s o = .ok s') :
    s'.observers = s.observers ++ registered [o] ∧ (s.tracker = some s.observers → s'.tracker = some s'.observers) := by
  cases o with
  | observer obs =>
    cases h
    refine ⟨rfl, fun h => ?_⟩
    simp [addFrameTrackerObserver, h]
  | frame x =>
    simp only [step] at h
    split at h
    · unfold frameInit at h
      split at h
      · cases h
      · cases h
        refine ⟨by simp, fun h => ?_⟩
        simp only [h]
        split <;> rfl
    · unfold frameTrack at h
      split at h
      · cases h
        refine ⟨by simp, fun h => ?_⟩
        simp only [h]
        split <;> rfl
      · cases h
      · cases h

theorem run_observers [Group G] {set : Settings} : ∀ (ops : List (Op G)) {s s' : State G}, run set s ops = .ok s' →
    s'.observers = s.observers ++ registered ops ∧ (s.tracker = some s.observers → s'.tracker = some s'.observers) := by
  intro ops
  induction ops with
  | nil => intro s s' h; cases h; simp [registered]
  | cons o ops ih =>
    intro s s' h
    simp only [run] at h
    cases h1 : step set s o with
    | error e => rw [h1] at h; cases h
    | ok s1 =>
      rw [h1] at h
      obtain ⟨a1, a2⟩ := step_observers h1
      obtain ⟨b1, b2⟩ := ih h
      refine ⟨?_, fun ht => b2 (a2 ht)⟩
      rw [b1, a1]
      simp [registered]

theorem addFrame_keeps_init [Group G] {set : Settings} {s s' : Dso.State G} {x : FrameIn G} {r : Option Int}
    (h : Dso.addFrame set s x = .ok (s', r)) (hi : s.isInitialized = true) : s'.isInitialized = true := by
  have hw : ∀ {s s' : Dso.State G} {n : Int} {g : G}, writePose s n g = .ok s' → s'.isInitialized = s.isInitialized := by
    intro s s' n g h
    unfold writePose at h
    split at h <;> cases h
    rfl
  have hfold : ∀ (g : Dso.State G → Tracked G → Except Err (Dso.State G)),
      (∀ a f b, g a f = .ok b → b.isInitialized = a.isInitialized) →
      ∀ (l : List (Tracked G)) (a b : Dso.State G), l.foldlM g a = .ok b → b.isInitialized = a.isInitialized := by
    intro g hg l
    induction l with
    | nil => intro a b h; cases h; rfl
    | cons f l ih =>
      intro a b h
      rw [List.foldlM_cons] at h
      cases h1 : g a f with
      | error e => rw [h1] at h; cases h
      | ok c => rw [h1] at h; rw [ih c b h, hg a f c h1]
  have hrk : ∀ {a b : Dso.State G} {kf : KeyFrame G}, refreshKeyFrame a kf = .ok b → b.isInitialized = a.isInitialized := by
    intro a b kf h
    unfold refreshKeyFrame at h
    split at h
    · cases h
    · rename_i c h1
      rw [hfold _ (fun _ _ _ => hw) _ _ _ h, hw h1]
  have hfold2 : ∀ (l : List (KeyFrame G)) (a b : Dso.State G), l.foldlM refreshKeyFrame a = .ok b → b.isInitialized = a.isInitialized := by
    intro l
    induction l with
    | nil => intro a b h; cases h; rfl
    | cons f l ih =>
      intro a b h
      rw [List.foldlM_cons] at h
      cases h1 : refreshKeyFrame a f with
      | error e => rw [h1] at h; cases h
      | ok c => rw [h1] at h; rw [ih c b h, hrk h1]
  have hba : ∀ {a b : Dso.State G} {ba : Int → G}, runBundleAdjustment set a ba = .ok b → b.isInitialized = a.isInitialized := by
    intro a b ba h
    unfold runBundleAdjustment at h
    split at h
    · cases h; rfl
    · split at h
      · cases h
      · have := hfold2 _ _ _ h
        exact this
  have hadj : ∀ {a b : Dso.State G} {n : Int}, adjustWorldToFrameSizes a n = .ok b → b.isInitialized = a.isInitialized := by
    intro a b n h
    unfold adjustWorldToFrameSizes at h
    split at h
    · cases h
    · split at h
      · split at h
        · cases h
        · cases h; rfl
      · cases h; rfl
  have hmarg : ∀ (a : Dso.State G), (marginalizeFrames set a).isInitialized = a.isInitialized := by
    intro a
    unfold marginalizeFrames
    split <;> rfl
  unfold Dso.addFrame at h
  split at h
  · cases h
  · rename_i s1 h1
    have hi1 : s1.isInitialized = true := by rw [hadj h1]; exact hi
    split at h
    · simp only [hi1, Bool.not_true, Bool.false_eq_true, if_false] at h
      unfold addFrameTrack at h
      split at h
      · cases h
      · simp only at h
        split at h
        · cases h
        · split at h
          · cases h
          · rename_i s2 h2
            have hi2 : s2.isInitialized = true := by rw [hw h2]
            split at h
            · cases h
            · split at h
              · split at h
                · cases h
                · cases h; exact hi2
              · split at h
                · split at h
                  · cases h
                  · rename_i s3 h3
                    cases h
                    unfold addKeyFrame at h3
                    simp only at h3
                    split at h3
                    · cases h3
                    · rw [hba h3]
                      simp only [hmarg]
                      exact hi2
                · cases h; exact hi2
    · cases h

theorem run_keeps_init [Group G] {set : Settings} : ∀ (ops : List (Op G)) {s s' : State G}, run set s ops = .ok s' →
    s.sys.isInitialized = true → s'.sys.isInitialized = true := by
  intro ops
  induction ops with
  | nil => intro s s' h hi; cases h; exact hi
  | cons o ops ih =>
    intro s s' h hi
    simp only [run] at h
    split at h
    · cases h
    · rename_i s1 h1
      refine ih h ?_
      cases o with
      | observer obs => cases h1; exact hi
      | frame x =>
        simp only [step, hi, Bool.not_true, Bool.false_eq_true, if_false] at h1
        unfold frameTrack at h1
        split at h1
        · rename_i h2
          cases h1
          exact addFrame_keeps_init h2 hi
        · cases h1
        · cases h1

/-- A frame tracked in an initialized session is told to the observers of the current tracker. -/
theorem tracked_told [Group G] {set : Settings} {s s' : State G} {x : FrameInput G} {told : List Nat} (hi : s.sys.isInitialized = true)
    (ht : s.tracker = some told) (h : step set s (.frame x) = .ok s') :
    ∃ c, s'.calls = s.calls ++ [c] ∧ c.num = x.num ∧ c.told = told := by
  simp only [step, hi, Bool.not_true, Bool.false_eq_true, if_false] at h
  unfold frameTrack at h
  split at h
  · rename_i ht' _ _ _
    cases h
    rw [ht] at ht'
    cases ht'
    exact ⟨_, rfl, rfl, rfl⟩
  · cases h
  · cases h

theorem resume_observers [Group G] {set : Settings} (hset : 0 ≤ set.initialMaxFrame) (given inCreated : List Nat) (k : Nat)
    {kfs : List (KeyFrame G)} (hres : Resumable kfs) (light : AffLight) (lights : Int → AffLight) :
    ∃ s0, resume set given inCreated k kfs light lights = .ok s0 ∧ s0.observers = given ++ inCreated ∧ s0.tracker = some given ∧
      s0.calls = [] ∧ s0.sys.isInitialized = true := by
  obtain ⟨s, T, e, hk, hi, -⟩ := resume_ok hset k hres
  refine ⟨⟨s, light, lights, given ++ inCreated, some given, []⟩, by simp only [resume, e], rfl, rfl, rfl, hi⟩

/-- C106, for a resumed system: once a frame has become a keyframe, every frame tracked later is told to all observers. -/
theorem C106_resumed_partial [Group G] {set : Settings} (hset : 0 ≤ set.initialMaxFrame) (hch : set.continueChoosingKeyFrames = true)
    (given inCreated : List Nat) (k : Nat) {kfs : List (KeyFrame G)} (hres : Resumable kfs) (light : AffLight) (lights : Int → AffLight) :
    ∃ s0, resume set given inCreated k kfs light lights = .ok s0 ∧
      ∀ (before after : List (Op G)) (x y : FrameInput G) (s1 s : State G), run set s0 before = .ok s1 →
        doNeedKf set s1.sys.keyFrames x.num = .ok true →
        run set s0 (before ++ .frame x :: after ++ [.frame y]) = .ok s →
        ∃ c, s.calls.getLast? = some c ∧ c.num = y.num ∧ c.told = given ++ inCreated ++ registered (before ++ after) := by
  obtain ⟨s0, e0, r1, -, -, hi0⟩ := resume_observers hset given inCreated k hres light lights
  refine ⟨s0, e0, fun before after x y s1 s h1 hneed h2 => ?_⟩
  have hi := run_keeps_init before h1 hi0
  obtain ⟨o1, -⟩ := run_observers before h1
  rw [run_append] at h2
  cases h3 : run set s0 (before ++ .frame x :: after) with
  | error e => rw [h3] at h2; cases h2
  | ok s2 =>
    rw [h3] at h2
    have hini2 := run_keeps_init _ h3 hi0
    rw [run_append, h1] at h3
    simp only [Except.bind, run] at h3 h2
    cases h4 : step set s1 (.frame x) with
    | error e => rw [h4] at h3; cases h3
    | ok s1' =>
      rw [h4] at h3
      have ht : s1'.tracker = some s1'.observers := by
        simp only [step, hi, Bool.not_true, Bool.false_eq_true, if_false, frameTrack, hneed, hch] at h4
        split at h4
        · rename_i hn _
          cases hn
          cases h4
          rfl
        · cases h4
        · cases h4
      obtain ⟨o2, -⟩ := step_observers h4
      obtain ⟨o3, t3⟩ := run_observers after h3
      cases h5 : step set s2 (.frame y) with
      | error e => rw [h5] at h2; cases h2
      | ok s3 =>
        rw [h5] at h2
        cases h2
        obtain ⟨c, hc, hcn, hct⟩ := tracked_told hini2 (t3 ht) h5
        refine ⟨c, by rw [hc]; simp, hcn, ?_⟩
        rw [hct, o3, o2, o1, r1]
        simp

/-- C106 is violated for a resumed system: whatever the snapshot, the first frame is told only to the observers given to the constructor, not to
those registered while `created` was called. -/
theorem C106_resumed_violated [Group G] {set : Settings} (hset : 0 ≤ set.initialMaxFrame) (given inCreated : List Nat) (k : Nat)
    {kfs : List (KeyFrame G)} (hres : Resumable kfs) (light : AffLight) (lights : Int → AffLight) :
    ∃ s0, resume set given inCreated k kfs light lights = .ok s0 ∧ s0.observers = given ++ inCreated ∧
      ∀ (x : FrameInput G) (s : State G), run set s0 [.frame x] = .ok s → ∃ c, s.calls = [c] ∧ c.num = x.num ∧ c.told = given := by
  obtain ⟨s0, e0, r1, r2, r3, hi0⟩ := resume_observers hset given inCreated k hres light lights
  refine ⟨s0, e0, r1, fun x s h => ?_⟩
  simp only [run] at h
  cases h5 : step set s0 (.frame x) with
  | error e => rw [h5] at h; cases h
  | ok s3 =>
    rw [h5] at h
    cases h
    obtain ⟨c, hc, hcn, hct⟩ := tracked_told hi0 r2 h5
    exact ⟨c, by rw [hc, r3]; rfl, hcn, hct⟩

example := C106_resumed_partial (set := exSettings) (by decide) rfl [7] [8] 1 exWindow_resumable .identity (fun _ => .identity)
example := C106_resumed_violated (set := exSettings) (by decide) [7] [8] 1 exWindow_resumable .identity (fun _ => .identity)

/-- Both theorems apply: a window saved by a running system is resumed; the drawer 8 registers itself in `created`. It is not told about frame 7
but, since frame 7 becomes a keyframe, about frame 8. -/
theorem C106_resumed_example_violated :
    ∃ s0, resume exSettings [7] [8] 1 exWindow .identity (fun _ => .identity) = .ok s0 ∧
      ∃ s, run exSettings s0 [exFrame 7, exFrame 8] = .ok s ∧
        s.calls.map (fun c => (c.num, c.told)) = [(7, [7]), (8, [7, 8])] :=
  ⟨_, rfl, _, rfl, rfl⟩

end Mdso.Session
