import Verif.Spec.FrameTracker
import Verif.Props.TrackingDepths
import Verif.Props.CameraModel

/-!
# Tracking a frame
-/

set_option autoImplicit false

namespace Mdso.Track

open Mdso.Geom Mdso.Light Mdso.Track.Spec

/-! ### Pixels -/

theorem mem_pixels {rows cols : Nat} {q : Nat × Nat} : q ∈ pixels rows cols ↔ q.1 < rows ∧ q.2 < cols := by
  unfold pixels
  simp only [List.mem_flatMap, List.mem_map, List.mem_range]
  constructor
  · rintro ⟨y, hy, x, hx, rfl⟩; exact ⟨hy, hx⟩
  · rintro ⟨h1, h2⟩; exact ⟨q.1, h1, q.2, h2, rfl⟩

theorem pixels_before (rows cols : Nat) : (pixels rows cols).Pairwise Before := by
  unfold pixels
  rw [List.pairwise_flatMap]
  constructor
  · intro y _
    rw [List.pairwise_map]
    exact List.pairwise_lt_range.imp fun h => Or.inr ⟨rfl, h⟩
  · refine List.pairwise_lt_range.imp ?_
    intro a b hab p hp q hq
    obtain ⟨x, -, rfl⟩ := List.mem_map.1 hp
    obtain ⟨x', -, rfl⟩ := List.mem_map.1 hq
    exact Or.inl hab

theorem read_ok {α : Type} {img : Pyr.Img α} {y x : Nat} {v : α} (h : img.read y x = .ok v) :
    y < img.rows ∧ x < img.cols ∧ v = img.px y x := by
  unfold Pyr.Img.read at h
  split at h
  · cases h; exact ⟨by tauto, by tauto, rfl⟩
  · cases h

theorem read_in {α : Type} {img : Pyr.Img α} {y x : Nat} (hy : y < img.rows) (hx : x < img.cols) :
    img.read y x = .ok (img.px y x) := by
  unfold Pyr.Img.read
  rw [if_pos ⟨hy, hx⟩]

/-- The pixels with a residual block, and their blocks. -/
theorem collect_spec {f : Nat → Nat → Except Fault (Option Block)} : ∀ {l : List (Nat × Nat)} {bs : List Block},
    collect f l = .ok bs → ∃ pix : List (Nat × Nat), pix.Sublist l ∧
      (∀ q, q ∈ l → ∃ o, f q.1 q.2 = .ok o ∧ (q ∈ pix → o ≠ none)) ∧
      (∀ q, q ∈ l → (∃ b, f q.1 q.2 = .ok (some b)) → q ∈ pix) ∧
      List.Forall₂ (fun q b => f q.1 q.2 = .ok (some b)) pix bs := by
  intro l
  induction l with
  | nil =>
    intro bs h
    cases h
    exact ⟨[], List.Sublist.refl _, by simp, by simp, .nil⟩
  | cons a l ih =>
    intro bs h
    cases hf : f a.1 a.2 with
    | error e => simp only [collect, hf, bind, Except.bind] at h; cases h
    | ok o =>
      cases hr : collect f l with
      | error e => simp only [collect, hf, hr, bind, Except.bind] at h; cases h
      | ok bs' =>
        simp only [collect, hf, hr, bind, Except.bind] at h
        cases h
        obtain ⟨pix, h1, h2, h3, h4⟩ := ih hr
        cases o with
        | none =>
          refine ⟨pix, h1.cons a, ?_, ?_, h4⟩
          · intro q hq
            rcases List.mem_cons.1 hq with rfl | hq
            · refine ⟨none, hf, fun hp => ?_⟩
              obtain ⟨o, ho, hn⟩ := h2 q (h1.subset hp)
              rw [hf] at ho; cases ho
              exact hn hp
            · exact h2 q hq
          · rintro q hq ⟨b, hb⟩
            rcases List.mem_cons.1 hq with rfl | hq
            · rw [hf] at hb; cases hb
            · exact h3 q hq ⟨b, hb⟩
        | some b =>
          refine ⟨a :: pix, h1.cons_cons a, ?_, ?_, .cons hf h4⟩
          · intro q hq
            rcases List.mem_cons.1 hq with rfl | hq
            · exact ⟨some b, hf, fun _ => by simp⟩
            · obtain ⟨o, ho, hn⟩ := h2 q hq
              refine ⟨o, ho, fun hp => ?_⟩
              rcases List.mem_cons.1 hp with rfl | hp
              · rw [hf] at ho; cases ho; simp
              · exact hn hp
          · intro q hq hb
            rcases List.mem_cons.1 hq with rfl | hq
            · exact List.mem_cons_self
            · exact List.mem_cons_of_mem _ (h3 q hq hb)

theorem readInt_ok {img : Pyr.Img Nat} {y x : Int} {v : Nat} (h : readInt img y x = .ok v) :
    0 ≤ y ∧ 0 ≤ x ∧ y.toNat < img.rows ∧ x.toNat < img.cols ∧ v = img.px y.toNat x.toNat := by
  unfold readInt at h
  split at h
  · rename_i h0
    obtain ⟨h1, h2, h3⟩ := read_ok h
    exact ⟨h0.1, h0.2, h1, h2, h3⟩
  · cases h

theorem readInt_in {img : Pyr.Img Nat} {y x : Int} (hy : 0 ≤ y) (hx : 0 ≤ x) (hy' : y.toNat < img.rows)
    (hx' : x.toNat < img.cols) : readInt img y x = .ok (img.px y.toNat x.toNat) := by
  unfold readInt
  rw [if_pos ⟨hy, hx⟩, read_in hy' hx']

/-- The gradient is defined exactly for inner pixels. -/
theorem gradNormAt_iff (img : Pyr.Img Nat) (y x : Nat) : (∃ g, gradNormAt img y x = .ok g) ↔ HasNeighbours img (y, x) := by
  constructor
  · rintro ⟨g, h⟩
    unfold gradNormAt at h
    cases h1 : readInt img y (x + 1) with
    | error e => simp only [h1, bind, Except.bind] at h; cases h
    | ok r =>
    cases h2 : readInt img y (x - 1) with
    | error e => simp only [h1, h2, bind, Except.bind] at h; cases h
    | ok l =>
    cases h3 : readInt img (y + 1) x with
    | error e => simp only [h1, h2, h3, bind, Except.bind] at h; cases h
    | ok d =>
    cases h4 : readInt img (y - 1) x with
    | error e => simp only [h1, h2, h3, h4, bind, Except.bind] at h; cases h
    | ok u =>
      have a1 := readInt_ok h1
      have a2 := readInt_ok h2
      have a3 := readInt_ok h3
      have a4 := readInt_ok h4
      unfold HasNeighbours
      simp only
      omega
  · rintro ⟨h1, h2, h3, h4⟩
    simp only at h1 h2 h3 h4
    unfold gradNormAt
    rw [readInt_in (by omega) (by omega) (by omega) (by omega), readInt_in (by omega) (by omega) (by omega) (by omega),
      readInt_in (by omega) (by omega) (by omega) (by omega), readInt_in (by omega) (by omega) (by omega) (by omega)]
    exact ⟨_, rfl⟩

theorem gradNormAt_error {img : Pyr.Img Nat} {y x : Nat} {e : Fault} (h : gradNormAt img y x = .error e) : e = .ub := by
  have key : ∀ {y x : Int} {e : Fault}, readInt img y x = .error e → e = .ub := by
    intro y x e h
    unfold readInt Pyr.Img.read at h
    split at h
    · split at h
      · cases h
      · cases h; rfl
    · cases h; rfl
  unfold gradNormAt at h
  cases h1 : readInt img y (x + 1) with
  | error e => simp only [h1, bind, Except.bind] at h; cases h; exact key h1
  | ok r =>
  cases h2 : readInt img y (x - 1) with
  | error e => simp only [h1, h2, bind, Except.bind] at h; cases h; exact key h2
  | ok l =>
  cases h3 : readInt img (y + 1) x with
  | error e => simp only [h1, h2, h3, bind, Except.bind] at h; cases h; exact key h3
  | ok d =>
  cases h4 : readInt img (y - 1) x with
  | error e => simp only [h1, h2, h3, h4, bind, Except.bind] at h; cases h; exact key h4
  | ok u => simp only [h1, h2, h3, h4, bind, Except.bind] at h; cases h

theorem weightAt_spec {s : Settings} {img : Pyr.Img Nat} {y x : Nat} {w : ℝ} (h : weightAt s img y x = .ok w) :
    w = weightOf s img (y, x) ∧ (s.useGradWeighting = true → HasNeighbours img (y, x)) := by
  unfold weightAt at h
  by_cases hg : s.useGradWeighting = true
  · rw [if_pos hg] at h
    cases h1 : gradNormAt img y x with
    | error e => simp only [h1, bind, Except.bind] at h; cases h
    | ok g =>
      simp only [h1, bind, Except.bind] at h
      have hi := (gradNormAt_iff img y x).1 ⟨g, h1⟩
      refine ⟨?_, fun _ => hi⟩
      obtain ⟨i1, i2, i3, i4⟩ := hi
      simp only at i1 i2 i3 i4
      unfold gradNormAt at h1
      rw [readInt_in (by omega) (by omega) (by omega) (by omega), readInt_in (by omega) (by omega) (by omega) (by omega),
        readInt_in (by omega) (by omega) (by omega) (by omega),
        readInt_in (by omega) (by omega) (by omega) (by omega)] at h1
      simp only [bind, Except.bind] at h1
      cases h1
      cases h
      unfold weightOf
      rw [if_pos hg]
      have e1 : ((x : Int) + 1).toNat = x + 1 := by omega
      have e2 : ((x : Int) - 1).toNat = x - 1 := by omega
      have e3 : ((y : Int) + 1).toNat = y + 1 := by omega
      have e4 : ((y : Int) - 1).toNat = y - 1 := by omega
      simp only [e1, e2, e3, e4, Int.toNat_natCast]
  · rw [if_neg hg] at h
    cases h
    unfold weightOf
    rw [if_neg hg]
    exact ⟨rfl, fun h => absurd h hg⟩

/-! ### One level -/

theorem pixelBody_spec {s : Settings} {c : Cam.Cam} {img : Pyr.Img Nat} {depths : Pyr.Img ℝ} {m : Motion3} {y x : Nat}
    {o : Option Block} (h : pixelBody s c img depths m y x = .ok o) :
    (o = none ∧ ¬ (0 < depths.px y x ∧ Cam.isOnImage c (Cam.map c (m.act (pointOf c y x (depths.px y x)))) 0)) ∨
    (Matched c img depths m (y, x) ∧ (s.useGradWeighting = true → HasNeighbours img (y, x)) ∧
      o = some ⟨pointOf c y x (depths.px y x), img.px y x, weightOf s img (y, x)⟩) := by
  unfold pixelBody at h
  cases hd : depths.read y x with
  | error e => simp only [hd, bind, Except.bind] at h; cases h
  | ok d =>
    obtain ⟨h1, h2, rfl⟩ := read_ok hd
    simp only [hd, bind, Except.bind] at h
    by_cases hc : 0 < depths.px y x ∧
        isPointTrackable c (depths.px y x • (Cam.unmap c ⟨x, y⟩).normalized) m
    · rw [if_pos hc] at h
      right
      unfold blockOf at h
      cases hi : img.read y x with
      | error e => simp only [hi, bind, Except.bind] at h; cases h
      | ok i =>
        obtain ⟨h3, h4, rfl⟩ := read_ok hi
        cases hw : weightAt s img y x with
        | error e => simp only [hi, hw, bind, Except.bind] at h; cases h
        | ok w =>
          simp only [hi, hw, bind, Except.bind] at h
          cases h
          obtain ⟨rfl, hin⟩ := weightAt_spec hw
          exact ⟨⟨h3, h4, hc.1, hc.2⟩, hin, rfl⟩
    · rw [if_neg hc] at h
      cases h
      exact Or.inl ⟨rfl, hc⟩

/-- Everything about one level. -/
theorem level_spec {s : Settings} {solve : Solver} {c : Cam.Cam} {img : Pyr.Img Nat} {depths : Pyr.Img ℝ} {tracked : Interp}
    {m : Motion3} {l : AffLight} {i : Nat} {r : Report} (h : trackPyrLevel s solve c img depths tracked m l i = .ok r) :
    ∃ pix : List (Nat × Nat), r.pyrLevel = i ∧ pix.Pairwise Before ∧ (∀ q, q ∈ pix ↔ Matched c img depths m q) ∧
      (s.useGradWeighting = true → ∀ q ∈ pix, HasNeighbours img q) ∧
      r.pointResiduals = pix.map (fun q =>
        (seenAt c depths r.baseToLast q, mismatch c img depths tracked r.baseToLast r.affLight q)) ∧
      estimate r = solve {
        cam := c, trackedFrame := tracked,
        blocks := pix.map (fun q => ⟨pointOf c q.1 q.2 (depths.px q.1 q.2), img.px q.1 q.2, weightOf s img q⟩),
        motion := m, affLight := l, lightConstant := (!s.optimizeAffineLight), minA := s.minAffineLightA,
        maxA := s.maxAffineLightA, minB := s.minAffineLightB, maxB := s.maxAffineLightB, huber := s.outlierDiff } := by
  unfold trackPyrLevel at h
  cases hc : collect (pixelBody s c img depths m) (pixels img.rows img.cols) with
  | error e => simp only [hc, bind, Except.bind] at h; cases h
  | ok bs =>
    simp only [hc, bind, Except.bind] at h
    obtain ⟨pix, h1, h2, h3, h4⟩ := collect_spec hc
    have hm : ∀ q, q ∈ pix ↔ Matched c img depths m q := by
      intro q
      constructor
      · intro hq
        obtain ⟨o, ho, hn⟩ := h2 q (h1.subset hq)
        rcases pixelBody_spec ho with ⟨h, -⟩ | ⟨h, -⟩
        · exact absurd h (hn hq)
        · exact h
      · intro hq
        have hp : q ∈ pixels img.rows img.cols := mem_pixels.2 ⟨hq.1, hq.2.1⟩
        obtain ⟨o, ho, -⟩ := h2 q hp
        refine h3 q hp ?_
        rcases pixelBody_spec ho with ⟨-, h⟩ | ⟨-, -, h⟩
        · exact absurd ⟨hq.2.2.1, hq.2.2.2⟩ h
        · subst h; exact ⟨_, ho⟩
    have hb : bs = pix.map fun q => ⟨pointOf c q.1 q.2 (depths.px q.1 q.2), img.px q.1 q.2, weightOf s img q⟩ := by
      clear hm h1 h2 h3 hc h
      induction h4 with
      | nil => rfl
      | cons hq _ ih =>
        rw [List.map_cons, ← ih]
        rcases pixelBody_spec hq with ⟨h, -⟩ | ⟨-, -, h⟩
        · cases h
        · cases h; rfl
    have hin : s.useGradWeighting = true → ∀ q ∈ pix, HasNeighbours img q := by
      intro hg q hq
      obtain ⟨o, ho, hn⟩ := h2 q (h1.subset hq)
      rcases pixelBody_spec ho with ⟨h, -⟩ | ⟨-, h, -⟩
      · exact absurd h (hn hq)
      · exact h hg
    subst hb
    cases h
    refine ⟨pix, rfl, (pixels_before _ _).sublist h1, hm, hin, ?_, rfl⟩
    simp only [pointResiduals, List.map_map]
    rfl

/-! ### All levels -/

theorem at'_ok_iff {α : Type} {l : List α} {i : Nat} {a : α} : at' l i = .ok a ↔ l[i]? = some a := by
  constructor
  · exact at'_ok
  · intro h; unfold at'; rw [h]

theorem trackLevel_ok {s : Settings} {solve : Solver} {camPyr : List Cam.Cam} {base : BaseFrame} {frame : Frame} {m : Motion3}
    {l : AffLight} {i : Nat} {r : Report} (h : trackLevel s solve camPyr base frame m l i = .ok r) :
    ∃ c img depths tracked, LevelAt ⟨s, camPyr, base, 0⟩ frame i c img depths tracked ∧
      trackPyrLevel s solve c img depths tracked m l i = .ok r := by
  unfold trackLevel at h
  cases h1 : at' camPyr i with
  | error e => simp only [h1, bind, Except.bind] at h; cases h
  | ok c =>
  cases h2 : at' base.images i with
  | error e => simp only [h1, h2, bind, Except.bind] at h; cases h
  | ok img =>
  cases h3 : at' base.depths i with
  | error e => simp only [h1, h2, h3, bind, Except.bind] at h; cases h
  | ok depths =>
  cases h4 : at' frame i with
  | error e => simp only [h1, h2, h3, h4, bind, Except.bind] at h; cases h
  | ok tracked =>
    simp only [h1, h2, h3, h4, bind, Except.bind] at h
    exact ⟨c, img, depths, tracked, ⟨at'_ok h1, at'_ok h2, at'_ok h3, at'_ok h4⟩, h⟩

/-- The run over all levels: the levels, and what each one starts from. -/
theorem levels_spec {s : Settings} {solve : Solver} {camPyr : List Cam.Cam} {base : BaseFrame} {frame : Frame} :
    ∀ {n : Nat} {m : Motion3} {l : AffLight} {res : Motion3 × AffLight × List Report},
      trackLevels s solve camPyr base frame n m l = .ok res →
      res.2.2.map Report.pyrLevel = (List.range n).reverse ∧
      startOf (m, l) res.2.2 n = (res.1, res.2.1) ∧
      ∀ k r, res.2.2[k]? = some r → trackLevel s solve camPyr base frame (startOf (m, l) res.2.2 k).1
        (startOf (m, l) res.2.2 k).2 r.pyrLevel = .ok r := by
  intro n
  induction n with
  | zero => intro m l res h; cases h; exact ⟨rfl, rfl, by simp⟩
  | succ n ih =>
    intro m l res h
    unfold trackLevels at h
    cases h1 : trackLevel s solve camPyr base frame m l n with
    | error e => simp only [h1, bind, Except.bind] at h; cases h
    | ok r =>
    cases h2 : trackLevels s solve camPyr base frame n r.baseToLast r.affLight with
    | error e => simp only [h1, h2, bind, Except.bind] at h; cases h
    | ok rest =>
      simp only [h1, h2, bind, Except.bind] at h
      cases h
      obtain ⟨i1, i2, i3⟩ := ih h2
      have hl : r.pyrLevel = n := by
        obtain ⟨_, _, _, _, -, h⟩ := trackLevel_ok h1
        obtain ⟨_, h, -⟩ := level_spec h
        exact h
      have hlen : rest.2.2.length = n := by
        have := congrArg List.length i1
        simpa using this
      have hs : ∀ k, k ≤ n → startOf (m, l) (r :: rest.2.2) (k + 1) =
          startOf (r.baseToLast, r.affLight) rest.2.2 k := by
        intro k hk
        cases k with
        | zero => rfl
        | succ k =>
          have hlt : k < rest.2.2.length := by omega
          simp only [startOf, List.getElem?_cons_succ, List.getElem?_eq_getElem hlt, Option.map_some, Option.getD_some]
      refine ⟨?_, ?_, ?_⟩
      · simp only [List.map_cons, i1, hl, List.range_succ, List.reverse_append, List.reverse_cons, List.reverse_nil,
          List.nil_append, List.cons_append]
      · show startOf (m, l) (r :: rest.2.2) (n + 1) = _
        rw [hs n (le_refl n)]
        exact i2
      · intro k q hq
        cases k with
        | zero =>
          simp only [List.getElem?_cons_zero, Option.some.injEq] at hq
          subst hq
          rw [hl]
          exact h1
        | succ k =>
          simp only [List.getElem?_cons_succ] at hq
          have hk : k ≤ n := by
            have := (List.getElem?_eq_some_iff.1 hq).1
            omega
          show trackLevel s solve camPyr base frame (startOf (m, l) (r :: rest.2.2) (k + 1)).1
            (startOf (m, l) (r :: rest.2.2) (k + 1)).2 q.pyrLevel = .ok q
          rw [hs k hk]
          exact i3 k q hq

theorem tell_filter (n o : Nat) (e : Event) : ((tell n e).filter fun q => q.1 == o).map Prod.snd = if o < n then [e] else [] := by
  induction n with
  | zero => rfl
  | succ n ih =>
    have : tell (n + 1) e = tell n e ++ [(n, e)] := by
      simp only [tell, List.range_succ, List.map_append, List.map_cons, List.map_nil]
    rw [this, List.filter_append, List.map_append, ih]
    by_cases h : n = o
    · subst h
      simp
    · have h' : (n == o) = false := by simpa using h
      have e1 : ([(n, e)] : List (Nat × Event)).filter (fun q => q.1 == o) = [] := by
        simp [h']
      rw [e1, List.map_nil, List.append_nil]
      by_cases h2 : o < n
      · rw [if_pos h2, if_pos (Nat.lt_succ_of_lt h2)]
      · rw [if_neg h2, if_neg (by omega)]

theorem events (n : Nat) (rs : List Report) :
    EventsAre n (tell n .startTracking ++ rs.flatMap fun rep => tell n (.levelTracked rep)) rs := by
  constructor
  · intro o e h
    rcases List.mem_append.1 h with h | h
    · obtain ⟨x, hx, hxe⟩ := List.mem_map.1 h
      cases hxe
      exact List.mem_range.1 hx
    · obtain ⟨r, -, hr⟩ := List.mem_flatMap.1 h
      obtain ⟨x, hx, hxe⟩ := List.mem_map.1 hr
      cases hxe
      exact List.mem_range.1 hx
  · intro o ho
    rw [List.filter_append, List.map_append, tell_filter, if_pos ho, List.singleton_append]
    congr 1
    induction rs with
    | nil => rfl
    | cons r rs ih =>
      rw [List.flatMap_cons, List.filter_append, List.map_append, tell_filter, if_pos ho, ih]
      rfl

/-- Everything about a tracked frame. -/
theorem run_spec {solve : Solver} {t : Tracker} {frame : Frame} {coarse : Motion3} {coarseLight : AffLight} {m : Motion3}
    {l : AffLight} {log : List (Nat × Event)} (h : trackFrame solve t frame coarse coarseLight = .ok (m, l, log)) :
    ∃ rs, EventsAre t.observers log rs ∧ rs.map Report.pyrLevel = (List.range t.s.levelNum).reverse ∧
      startOf (coarse, coarseLight) rs t.s.levelNum = (m, l) ∧
      ∀ k r, rs[k]? = some r → trackLevel t.s solve t.camPyr t.base frame (startOf (coarse, coarseLight) rs k).1
        (startOf (coarse, coarseLight) rs k).2 r.pyrLevel = .ok r := by
  unfold trackFrame at h
  cases hr : trackLevels t.s solve t.camPyr t.base frame t.s.levelNum coarse coarseLight with
  | error e => simp only [hr, bind, Except.bind] at h; cases h
  | ok res =>
    simp only [hr, bind, Except.bind] at h
    cases h
    obtain ⟨h1, h2, h3⟩ := levels_spec hr
    exact ⟨res.2.2, events _ _, h1, h2, h3⟩

/-- C92: tracking goes from the coarsest level down to the finest one; every observer is told the start and then every level exactly
once, in this order; what is returned is the estimate of the last level. -/
theorem C92_levels {solve : Solver} {t : Tracker} {frame : Frame} {coarse : Motion3} {coarseLight : AffLight} {m : Motion3}
    {l : AffLight} {log : List (Nat × Event)} (h : trackFrame solve t frame coarse coarseLight = .ok (m, l, log)) :
    ∃ rs, EventsAre t.observers log rs ∧ rs.map Report.pyrLevel = (List.range t.s.levelNum).reverse ∧
      (∀ r, rs.getLast? = some r → (m, l) = estimate r) ∧ (rs = [] → (m, l) = (coarse, coarseLight)) := by
  obtain ⟨rs, h1, h2, h3, -⟩ := run_spec h
  have hlen : rs.length = t.s.levelNum := by
    have := congrArg List.length h2
    simpa using this
  refine ⟨rs, h1, h2, ?_, ?_⟩
  · intro r hr
    rw [← h3, ← hlen]
    cases hn : rs.length with
    | zero => rw [List.length_eq_zero_iff.1 hn] at hr; cases hr
    | succ n =>
      have : rs[n]? = some r := by rw [← hr, List.getLast?_eq_getElem?, hn]; rfl
      simp only [startOf, this, Option.map_some, Option.getD_some]
  · intro hn
    rw [← h3, ← hlen, hn]
    rfl

/-- C93: on every level exactly those pixels of the base frame are matched that have a known depth and whose point is on the tracked
picture according to what is known before the level, which is the estimate of the level before. For each of them, in reading order,
the observers are told where it is seen according to the estimate of this level, and by how much the brightness differs there. -/
theorem C93_pixels {solve : Solver} {t : Tracker} {frame : Frame} {coarse : Motion3} {coarseLight : AffLight} {m : Motion3}
    {l : AffLight} {log : List (Nat × Event)} (h : trackFrame solve t frame coarse coarseLight = .ok (m, l, log)) :
    ∃ rs, EventsAre t.observers log rs ∧ rs.map Report.pyrLevel = (List.range t.s.levelNum).reverse ∧
      ∀ k r, rs[k]? = some r → ∃ c img depths tracked pix,
        Reports t frame (startOf (coarse, coarseLight) rs k) r c img depths tracked pix := by
  obtain ⟨rs, h1, h2, -, h4⟩ := run_spec h
  refine ⟨rs, h1, h2, fun k r hr => ?_⟩
  obtain ⟨c, img, depths, tracked, ha, hl⟩ := trackLevel_ok (h4 k r hr)
  obtain ⟨pix, -, p1, p2, -, p3, -⟩ := level_spec hl
  exact ⟨c, img, depths, tracked, pix, ha, p1, p2, p3⟩

/-! ### Descent, light and rigidity -/

theorem error_eq (s : Settings) (c : Cam.Cam) (img : Pyr.Img Nat) (depths : Pyr.Img ℝ) (tracked : Interp)
    (pix : List (Nat × Nat)) (m m' : Motion3) (l l' : AffLight) (lc : Bool) (a b a' b' : ℝ) :
    cost { cam := c, trackedFrame := tracked,
           blocks := pix.map (fun q => ⟨pointOf c q.1 q.2 (depths.px q.1 q.2), img.px q.1 q.2, weightOf s img q⟩),
           motion := m', affLight := l', lightConstant := lc, minA := a, maxA := b, minB := a', maxB := b',
           huber := s.outlierDiff } m l
      = photometricError s c img depths tracked pix (m, l) := by
  unfold cost photometricError
  rw [List.map_map]
  rfl

/-- The problem Ceres is given on a level, in terms of what the caller knows. -/
theorem level_problem {s : Settings} {solve : Solver} {c : Cam.Cam} {img : Pyr.Img Nat} {depths : Pyr.Img ℝ} {tracked : Interp}
    {m : Motion3} {l : AffLight} {i : Nat} {r : Report} (h : trackPyrLevel s solve c img depths tracked m l i = .ok r) :
    ∃ (pix : List (Nat × Nat)) (P : Problem), pix.Pairwise Before ∧ (∀ q, q ∈ pix ↔ Matched c img depths m q) ∧
      r.pointResiduals = pix.map (fun q =>
        (seenAt c depths r.baseToLast q, mismatch c img depths tracked r.baseToLast r.affLight q)) ∧
      estimate r = solve P ∧ P.motion = m ∧ P.affLight = l ∧ P.lightConstant = (!s.optimizeAffineLight) ∧
      (∀ l', LightInBounds P l' ↔ LightAllowed s l') ∧
      ∀ e, cost P e.1 e.2 = photometricError s c img depths tracked pix e := by
  obtain ⟨pix, -, p1, p2, -, p3, p4⟩ := level_spec h
  exact ⟨pix, _, p1, p2, p3, p4, rfl, rfl, rfl, fun _ => Iff.rfl, fun e => error_eq _ _ _ _ _ _ _ _ _ _ _ _ _ _ _⟩

/-- What Ceres promises, level by level. -/
theorem level_solved {solve : Solver} (hs : IsSolver solve) {s : Settings} {c : Cam.Cam} {img : Pyr.Img Nat}
    {depths : Pyr.Img ℝ} {tracked : Interp} {m : Motion3} {l : AffLight} {i : Nat} {r : Report}
    (h : trackPyrLevel s solve c img depths tracked m l i = .ok r) :
    (s.optimizeAffineLight = false → r.affLight = l) ∧
    (Base.Spec.Orthogonal m.rot → Base.Spec.Orthogonal r.baseToLast.rot) ∧
    (LightAllowed s l → LightAllowed s r.affLight) := by
  obtain ⟨pix, P, -, -, -, he, e1, e2, e3, e4, -⟩ := level_problem h
  have h1 : r.baseToLast = (estimate r).1 := rfl
  have h2 : r.affLight = (estimate r).2 := rfl
  refine ⟨fun ho => ?_, fun ho => ?_, fun ho => ?_⟩
  · rw [h2, he, ← e2]
    exact hs.light_constant P (by rw [e3, ho]; rfl)
  · rw [h1, he]
    exact hs.rotation P (by rw [e1]; exact ho)
  · rw [h2, he, ← e4]
    exact hs.bounds P ((e4 _).2 (by rw [e2]; exact ho))

/-- A property of the estimates that every level keeps holds from the start to the end. -/
theorem run_keeps {solve : Solver} {t : Tracker} {frame : Frame} {coarse : Motion3 × AffLight} {rs : List Report}
    (Q : Motion3 × AffLight → Prop) (h0 : Q coarse)
    (h4 : ∀ k r, rs[k]? = some r → trackLevel t.s solve t.camPyr t.base frame (startOf coarse rs k).1
        (startOf coarse rs k).2 r.pyrLevel = .ok r)
    (hstep : ∀ e i r, Q e → trackLevel t.s solve t.camPyr t.base frame e.1 e.2 i = .ok r → Q (estimate r)) :
    ∀ k, k ≤ rs.length → Q (startOf coarse rs k) := by
  intro k
  induction k with
  | zero => intro _; exact h0
  | succ k ih =>
    intro hk
    have hlt : k < rs.length := hk
    have hr : rs[k]? = some rs[k] := List.getElem?_eq_getElem hlt
    simp only [startOf, hr, Option.map_some, Option.getD_some]
    exact hstep _ _ _ (ih (by omega)) (h4 k _ hr)

/-- C94: if the light transform tracking starts from is within its bounds, no level increases the photometric error of the pixels
matched on it, and all light transforms are within the bounds. -/
theorem C94_descent {solve : Solver} (hs : IsSolver solve) {t : Tracker} {frame : Frame} {coarse : Motion3}
    {coarseLight : AffLight} {m : Motion3} {l : AffLight} {log : List (Nat × Event)}
    (hl : LightAllowed t.s coarseLight) (h : trackFrame solve t frame coarse coarseLight = .ok (m, l, log)) :
    LightAllowed t.s l ∧
    ∃ rs, EventsAre t.observers log rs ∧ rs.map Report.pyrLevel = (List.range t.s.levelNum).reverse ∧
      ∀ k r, rs[k]? = some r → ∃ c img depths tracked pix,
        Reports t frame (startOf (coarse, coarseLight) rs k) r c img depths tracked pix ∧
        photometricError t.s c img depths tracked pix (estimate r) ≤
          photometricError t.s c img depths tracked pix (startOf (coarse, coarseLight) rs k) ∧
        LightAllowed t.s r.affLight := by
  obtain ⟨rs, h1, h2, h3, h4⟩ := run_spec h
  have hlen : rs.length = t.s.levelNum := by
    have := congrArg List.length h2
    simpa using this
  have keep := run_keeps (fun e => LightAllowed t.s e.2) hl h4 (by
    intro e i r he hr
    obtain ⟨c, img, depths, tracked, -, hlv⟩ := trackLevel_ok hr
    exact (level_solved hs hlv).2.2 he)
  refine ⟨?_, rs, h1, h2, fun k r hr => ?_⟩
  · have := keep t.s.levelNum hlen.ge
    rw [h3] at this
    exact this
  · obtain ⟨c, img, depths, tracked, ha, hlv⟩ := trackLevel_ok (h4 k r hr)
    have hk : k ≤ rs.length := (List.getElem?_eq_some_iff.1 hr).1.le
    obtain ⟨pix, P, p1, p2, p3, he, e1, e2, -, e4, e5⟩ := level_problem hlv
    refine ⟨c, img, depths, tracked, pix, ⟨ha, p1, p2, p3⟩, ?_, (level_solved hs hlv).2.2 (keep k hk)⟩
    have := hs.descent P ((e4 _).2 (by rw [e2]; exact keep k hk))
    rw [← he, e5, e1, e2] at this
    rw [← e5 (startOf (coarse, coarseLight) rs k)]
    exact this

/-- C94: with a fixed light transform the one given is returned. -/
theorem C94_light_fixed {solve : Solver} (hs : IsSolver solve) {t : Tracker} {frame : Frame} {coarse : Motion3}
    {coarseLight : AffLight} {m : Motion3} {l : AffLight} {log : List (Nat × Event)}
    (ho : t.s.optimizeAffineLight = false) (h : trackFrame solve t frame coarse coarseLight = .ok (m, l, log)) :
    l = coarseLight := by
  obtain ⟨rs, -, h2, h3, h4⟩ := run_spec h
  have hlen : rs.length = t.s.levelNum := by
    have := congrArg List.length h2
    simpa using this
  have := run_keeps (fun e => e.2 = coarseLight) rfl h4 (by
    intro e i r he hr
    obtain ⟨c, img, depths, tracked, -, hlv⟩ := trackLevel_ok hr
    exact ((level_solved hs hlv).1 ho).trans he) t.s.levelNum hlen.ge
  rw [h3] at this
  exact this

/-- C94: the motion returned is rigid if the coarse one is. -/
theorem C94_rigid {solve : Solver} (hs : IsSolver solve) {t : Tracker} {frame : Frame} {coarse : Motion3}
    {coarseLight : AffLight} {m : Motion3} {l : AffLight} {log : List (Nat × Event)}
    (ho : Base.Spec.Orthogonal coarse.rot) (h : trackFrame solve t frame coarse coarseLight = .ok (m, l, log)) :
    Base.Spec.Orthogonal m.rot := by
  obtain ⟨rs, -, h2, h3, h4⟩ := run_spec h
  have hlen : rs.length = t.s.levelNum := by
    have := congrArg List.length h2
    simpa using this
  have := run_keeps (fun e => Base.Spec.Orthogonal e.1.rot) ho h4 (by
    intro e i r he hr
    obtain ⟨c, img, depths, tracked, -, hlv⟩ := trackLevel_ok hr
    exact (level_solved hs hlv).2.1 he) t.s.levelNum hlen.ge
  rw [h3] at this
  exact this

theorem huber_nonneg {δ s : ℝ} (hδ : 0 < δ) (h : 0 ≤ s) : 0 ≤ huber δ s := by
  unfold huber
  split
  · exact h
  · rename_i h1
    have : δ ≤ Real.sqrt s := Real.le_sqrt_of_sq_le (not_le.1 h1).le
    nlinarith

theorem huber_eq_zero {δ s : ℝ} (hδ : 0 < δ) (h : 0 ≤ s) (h0 : huber δ s ≤ 0) : s = 0 := by
  unfold huber at h0
  split at h0
  · linarith
  · rename_i h1
    have : δ ≤ Real.sqrt s := Real.le_sqrt_of_sq_le (not_le.1 h1).le
    nlinarith

theorem weight_pos {s : Settings} (hc : 0 < s.gradWeightingC) (img : Pyr.Img Nat) (q : Nat × Nat) : 0 < weightOf s img q := by
  unfold weightOf
  split
  · exact div_pos hc (Real.sqrt_pos.2 (by positivity))
  · exact one_pos

/-- The error vanishes exactly if every pixel fits exactly. -/
theorem error_zero_iff {s : Settings} (hc : 0 < s.gradWeightingC) (hδ : 0 < s.outlierDiff) (c : Cam.Cam) (img : Pyr.Img Nat)
    (depths : Pyr.Img ℝ) (tracked : Interp) (pix : List (Nat × Nat)) (e : Motion3 × AffLight) :
    0 ≤ photometricError s c img depths tracked pix e ∧
    (photometricError s c img depths tracked pix e ≤ 0 ↔ ∀ q ∈ pix, mismatch c img depths tracked e.1 e.2 q = 0) := by
  unfold photometricError
  induction pix with
  | nil => simp
  | cons a pix ih =>
    obtain ⟨i1, i2⟩ := ih
    rw [List.map_cons, List.sum_cons]
    have hw := weight_pos hc img a
    have hn := huber_nonneg hδ (sq_nonneg (mismatch c img depths tracked e.1 e.2 a))
    have hp := mul_nonneg hw.le hn
    refine ⟨by linarith, ?_⟩
    constructor
    · intro h q hq
      rcases List.mem_cons.1 hq with rfl | hq
      · have h0 : huber s.outlierDiff (mismatch c img depths tracked e.1 e.2 q ^ 2) ≤ 0 := by
          by_contra hcon
          have := mul_pos hw (not_le.1 hcon)
          linarith
        exact pow_eq_zero_iff (two_ne_zero) |>.1 (huber_eq_zero hδ (sq_nonneg _) h0)
      · exact i2.1 (by linarith) q hq
    · intro h
      have h1 := i2.2 fun q hq => h q (List.mem_cons_of_mem _ hq)
      have h2 : huber s.outlierDiff (mismatch c img depths tracked e.1 e.2 a ^ 2) = 0 := by
        rw [h a List.mem_cons_self]
        unfold huber
        rw [if_pos (by nlinarith [sq_nonneg s.outlierDiff])]
        norm_num
      rw [h2]
      linarith

/-- C94: a perfect match is kept. If on some level all matched pixels have exactly the brightness that is expected according to what
is known before, then this is so after the level as well. -/
theorem C94_exact {solve : Solver} (hs : IsSolver solve) {t : Tracker} (hc : 0 < t.s.gradWeightingC) (hδ : 0 < t.s.outlierDiff)
    {frame : Frame} {coarse : Motion3} {coarseLight : AffLight} {m : Motion3} {l : AffLight} {log : List (Nat × Event)}
    (hl : LightAllowed t.s coarseLight) (h : trackFrame solve t frame coarse coarseLight = .ok (m, l, log)) :
    ∃ rs, EventsAre t.observers log rs ∧ rs.map Report.pyrLevel = (List.range t.s.levelNum).reverse ∧
      ∀ k r, rs[k]? = some r → ∃ c img depths tracked, LevelAt t frame r.pyrLevel c img depths tracked ∧
        ∀ e, e = startOf (coarse, coarseLight) rs k →
          (∀ q, Matched c img depths e.1 q → mismatch c img depths tracked e.1 e.2 q = 0) →
          ∀ q, Matched c img depths e.1 q → mismatch c img depths tracked r.baseToLast r.affLight q = 0 := by
  obtain ⟨-, rs, h1, h2, h3⟩ := C94_descent hs hl h
  refine ⟨rs, h1, h2, fun k r hr => ?_⟩
  obtain ⟨c, img, depths, tracked, pix, ⟨ha, -, p2, -⟩, hle, -⟩ := h3 k r hr
  refine ⟨c, img, depths, tracked, ha, ?_⟩
  rintro e rfl h0 q hq
  have hz := (error_zero_iff hc hδ c img depths tracked pix (startOf (coarse, coarseLight) rs k)).2.2
    fun q hq => h0 q ((p2 q).1 hq)
  exact (error_zero_iff hc hδ c img depths tracked pix (estimate r)).2.1 (hle.trans hz) q ((p2 q).2 hq)

/-! ### When tracking is defined -/

theorem collect_ok {f : Nat → Nat → Except Fault (Option Block)} {l : List (Nat × Nat)}
    (h : ∀ q ∈ l, ∃ o, f q.1 q.2 = .ok o) : ∃ bs, collect f l = .ok bs := by
  induction l with
  | nil => exact ⟨[], rfl⟩
  | cons a l ih =>
    obtain ⟨o, ho⟩ := h a List.mem_cons_self
    obtain ⟨bs, hbs⟩ := ih fun q hq => h q (List.mem_cons_of_mem _ hq)
    unfold collect
    rw [ho, hbs]
    exact ⟨_, rfl⟩

theorem collect_error {f : Nat → Nat → Except Fault (Option Block)} {e : Fault} {l : List (Nat × Nat)}
    (h : collect f l = .error e) : ∃ q ∈ l, f q.1 q.2 = .error e := by
  induction l with
  | nil => cases h
  | cons a l ih =>
    unfold collect at h
    cases ho : f a.1 a.2 with
    | error e' =>
      simp only [ho, bind, Except.bind] at h
      cases h
      exact ⟨a, List.mem_cons_self, ho⟩
    | ok o =>
      cases hr : collect f l with
      | error e' =>
        simp only [ho, hr, bind, Except.bind] at h
        cases h
        obtain ⟨q, hq, he⟩ := ih hr
        exact ⟨q, List.mem_cons_of_mem _ hq, he⟩
      | ok bs => simp only [ho, hr, bind, Except.bind] at h; cases h

theorem pixelBody_error {s : Settings} {c : Cam.Cam} {img : Pyr.Img Nat} {depths : Pyr.Img ℝ} {m : Motion3} {y x : Nat}
    {e : Fault} (h : pixelBody s c img depths m y x = .error e) : e = .ub := by
  have rd : ∀ {α : Type} {im : Pyr.Img α} {e : Fault}, im.read y x = .error e → e = .ub := by
    intro α im e h
    unfold Pyr.Img.read at h
    split at h
    · cases h
    · cases h; rfl
  unfold pixelBody at h
  cases hd : depths.read y x with
  | error e' => simp only [hd, bind, Except.bind] at h; cases h; exact rd hd
  | ok d =>
    simp only [hd, bind, Except.bind] at h
    split at h
    · unfold blockOf at h
      cases hi : img.read y x with
      | error e' => simp only [hi, bind, Except.bind] at h; cases h; exact rd hi
      | ok i =>
        cases hw : weightAt s img y x with
        | error e' =>
          simp only [hi, hw, bind, Except.bind] at h
          cases h
          unfold weightAt at hw
          split at hw
          · cases hg : gradNormAt img y x with
            | error e' => simp only [hg, bind, Except.bind] at hw; cases hw; exact gradNormAt_error hg
            | ok g => simp only [hg, bind, Except.bind] at hw; cases hw
          · cases hw
        | ok w => simp only [hi, hw, bind, Except.bind] at h; cases h
    · cases h

/-- C96: on a level whose picture and depths have the same size tracking is defined exactly if no weighting by gradients is wanted or
all matched pixels have their four neighbours in the picture. -/
theorem C96_level {s : Settings} {solve : Solver} {c : Cam.Cam} {img : Pyr.Img Nat} {depths : Pyr.Img ℝ} {tracked : Interp}
    {m : Motion3} {l : AffLight} {i : Nat} (hr : img.rows = depths.rows) (hc : img.cols = depths.cols) :
    ((∃ r, trackPyrLevel s solve c img depths tracked m l i = .ok r) ↔
      (s.useGradWeighting = true → ∀ q, Matched c img depths m q → HasNeighbours img q)) ∧
    ∀ e, trackPyrLevel s solve c img depths tracked m l i = .error e → e = .ub := by
  refine ⟨⟨?_, ?_⟩, ?_⟩
  · rintro ⟨r, h⟩ hg q hq
    obtain ⟨pix, -, -, p2, p3, -, -⟩ := level_spec h
    exact p3 hg q ((p2 q).2 hq)
  · intro hg
    obtain ⟨bs, hbs⟩ : ∃ bs, collect (pixelBody s c img depths m) (pixels img.rows img.cols) = .ok bs := by
      refine collect_ok ?_
      intro q hq
      obtain ⟨h1, h2⟩ := mem_pixels.1 hq
      unfold pixelBody
      rw [read_in (hr ▸ h1) (hc ▸ h2)]
      simp only [bind, Except.bind]
      split
      · rename_i hm
        unfold blockOf
        rw [read_in h1 h2]
        simp only [bind, Except.bind]
        obtain ⟨w, hw⟩ : ∃ w, weightAt s img q.1 q.2 = .ok w := by
          unfold weightAt
          split
          · rename_i hu
            obtain ⟨g, hgn⟩ := (gradNormAt_iff img q.1 q.2).2 (hg hu q ⟨h1, h2, hm.1, hm.2⟩)
            rw [hgn]
            exact ⟨_, rfl⟩
          · exact ⟨_, rfl⟩
        rw [hw]
        exact ⟨_, rfl⟩
      · exact ⟨_, rfl⟩
    unfold trackPyrLevel
    rw [hbs]
    exact ⟨_, rfl⟩
  · intro e h
    unfold trackPyrLevel at h
    cases hb : collect (pixelBody s c img depths m) (pixels img.rows img.cols) with
    | ok bs => simp only [hb, bind, Except.bind] at h; cases h
    | error e' =>
      simp only [hb, bind, Except.bind] at h
      cases h
      obtain ⟨q, -, hq⟩ := collect_error hb
      exact pixelBody_error hq

theorem at'_error {α : Type} {l : List α} {i : Nat} {e : Fault} (h : at' l i = .error e) : e = .ub ∧ l.length ≤ i := by
  unfold at' at h
  split at h
  · cases h
  · rename_i h0
    cases h
    exact ⟨rfl, List.getElem?_eq_none_iff.1 h0⟩

theorem trackLevels_ok {s : Settings} {solve : Solver} {camPyr : List Cam.Cam} {base : BaseFrame} {frame : Frame} (n : Nat)
    (h : ∀ i, i < n → ∀ m l, ∃ r, trackLevel s solve camPyr base frame m l i = .ok r) :
    ∀ m l, ∃ res, trackLevels s solve camPyr base frame n m l = .ok res := by
  induction n with
  | zero => intro m l; exact ⟨_, rfl⟩
  | succ n ih =>
    intro m l
    obtain ⟨r, hr⟩ := h n (Nat.lt_succ_self n) m l
    obtain ⟨res, hres⟩ := ih (fun i hi => h i (Nat.lt_succ_of_lt hi)) r.baseToLast r.affLight
    unfold trackLevels
    rw [hr]
    simp only [bind, Except.bind, hres]
    exact ⟨_, rfl⟩

/-- Tracking is defined if all levels exist, the pictures and the depths have the same sizes and no gradient weighting is wanted. -/
theorem trackFrame_ok (solve : Solver) (t : Tracker) (frame : Frame) (coarse : Motion3) (coarseLight : AffLight)
    (hg : t.s.useGradWeighting = false) (hs : SameSizes t.base) (h1 : t.s.levelNum ≤ t.camPyr.length)
    (h2 : t.s.levelNum ≤ t.base.images.length) (h3 : t.s.levelNum ≤ frame.length) :
    ∃ res, trackFrame solve t frame coarse coarseLight = .ok res := by
  obtain ⟨res, hres⟩ := trackLevels_ok (s := t.s) (solve := solve) (camPyr := t.camPyr) (base := t.base) (frame := frame)
    t.s.levelNum (by
      intro i hi m l
      have g1 : i < t.camPyr.length := by omega
      have g2 : i < t.base.images.length := by omega
      have g3 : i < t.base.depths.length := by have := hs.1; omega
      have g4 : i < frame.length := by omega
      obtain ⟨e1, e2⟩ := hs.2 i _ _ (List.getElem?_eq_getElem g2) (List.getElem?_eq_getElem g3)
      obtain ⟨r, hr⟩ := (C96_level (s := t.s) (solve := solve) (c := t.camPyr[i]) (tracked := frame[i]) (m := m) (l := l)
        (i := i) e1 e2).1.2 (fun h => by rw [hg] at h; cases h)
      unfold trackLevel
      rw [at'_lt g1, at'_lt g2, at'_lt g3, at'_lt g4]
      exact ⟨r, hr⟩) coarse coarseLight
  unfold trackFrame
  rw [hres]
  exact ⟨_, rfl⟩

/-- The base frame of a tracker as `DepthedImagePyramid` builds it. -/
theorem base_sizes {base : Pyr.Img Nat} {n : Nat} {points : List (ℝ × ℝ)} {ds ws : List ℝ}
    {images : List (Pyr.Img Nat)} {depths : List (Pyr.Img ℝ)}
    (h : Pyr.depthedImagePyramid base (n + 1) points ds ws = .ok (images, depths)) :
    images.length = n + 1 ∧ SameSizes ⟨images, depths⟩ := by
  obtain ⟨ls, h1, h2, h3⟩ := Pyr.C42_pyramid base n
  unfold Pyr.depthedImagePyramid at h
  rw [h1] at h
  simp only at h
  split at h
  · obtain ⟨pts, hpts⟩ : ∃ pts : List Pyr.Pt, pts = (points.zip (ds.zip ws)).map fun q => ⟨q.1.1, q.1.2, q.2.1, q.2.2⟩ :=
      ⟨_, rfl⟩
    rw [← hpts] at h
    cases hd : Pyr.depthPyramid base.rows base.cols (n + 1) pts with
    | error e => rw [hd] at h; cases h
    | ok depths' =>
      rw [hd] at h
      cases h
      unfold Pyr.depthPyramid at hd
      rw [if_neg (Nat.succ_ne_zero n)] at hd
      cases hw : Pyr.writeAll base.rows base.cols pts Pyr.grid0 with
      | error e => rw [hw] at hd; cases hd
      | ok g =>
        obtain ⟨rest, hr1, hr2, hr3⟩ := Pyr.depthLevels_ok base.rows base.cols (fun y x => (g y x).1 * (g y x).2)
          (fun y x => (g y x).2) n 1
        rw [hw] at hd
        simp only [Nat.add_sub_cancel] at hd
        rw [hr1] at hd
        cases hd
        refine ⟨h2, by simp [h2, hr2], ?_⟩
        intro i img dep hi hd
        obtain ⟨e1, e2, -⟩ := h3 i img hi
        cases i with
        | zero =>
          simp only [List.getElem?_cons_zero, Option.some.injEq] at hd
          subst hd
          rw [pow_zero, Nat.div_one] at e1 e2
          exact ⟨e1, e2⟩
        | succ i =>
          simp only [List.getElem?_cons_succ] at hd
          obtain ⟨im, g1, f1, f2, -⟩ := Pyr.pyrN_ok base.rows base.cols (1 + i) (fun y x => (g y x).1 * (g y x).2)
            (fun y x => (g y x).2)
          rw [hr3 i dep hd] at g1
          cases g1
          rw [e1, e2, f1, f2, Nat.add_comm 1 i]
          exact ⟨rfl, rfl⟩
  · cases h

theorem newFrame_length (interp : Pyr.Img Nat → Interp) (img : Pyr.Img Nat) :
    ∃ f, newFrame interp img = .ok f ∧ f.length = 6 := by
  obtain ⟨ls, h1, h2, -⟩ := Pyr.C42_pyramid img 5
  unfold newFrame defaultLevelNum
  rw [h1]
  exact ⟨_, rfl, by rw [List.length_map, h2]⟩

/-- C95: with two to six pyramid levels, and no weighting by gradients, a tracker can be built from every depth pyramid and tracks every
frame from every start. -/
theorem C95_partial (s : Settings) (h2 : 2 ≤ s.levelNum) (h6 : s.levelNum ≤ 6) (hg : s.useGradWeighting = false)
    (solve : Solver) (cam : Cam.Cam) (base : Pyr.Img Nat) (points : List (ℝ × ℝ)) (ds ws : List ℝ)
    (images : List (Pyr.Img Nat)) (depths : List (Pyr.Img ℝ))
    (hb : Pyr.depthedImagePyramid base s.levelNum points ds ws = .ok (images, depths)) (observers : Nat)
    (interp : Pyr.Img Nat → Interp) (img : Pyr.Img Nat) (coarse : Motion3) (coarseLight : AffLight) :
    ∃ cams t log frame res, Cam.camPyr cam s.levelNum = .ok cams ∧ construct s cams ⟨images, depths⟩ observers = .ok (t, log) ∧
      newFrame interp img = .ok frame ∧ trackFrame solve t frame coarse coarseLight = .ok res := by
  obtain ⟨cams, c1, c2, -⟩ := Cam.C40_pyramid cam s.levelNum (by omega)
  obtain ⟨frame, f1, f2⟩ := newFrame_length interp img
  obtain ⟨n, hn⟩ : ∃ n, s.levelNum = n + 1 := ⟨s.levelNum - 1, by omega⟩
  rw [hn] at hb
  obtain ⟨b1, b2⟩ := base_sizes hb
  obtain ⟨res, hres⟩ := trackFrame_ok solve ⟨s, cams, ⟨images, depths⟩, observers⟩ frame coarse coarseLight hg b2
    (by simp only; omega) (by simp only; omega) (by simp only; omega)
  refine ⟨cams, _, tell observers .newBaseFrame, frame, res, c1, ?_, f1, hres⟩
  unfold construct
  rw [at'_lt (by omega)]
  rfl

/-- C95 is violated for one level: the tracker cannot be built. -/
theorem C95_one_level_violated (s : Settings) (h1 : s.levelNum = 1) (cam : Cam.Cam) (base : BaseFrame) (observers : Nat) :
    ∃ cams, Cam.camPyr cam s.levelNum = .ok cams ∧ construct s cams base observers = .error .ub := by
  obtain ⟨cams, c1, c2, -⟩ := Cam.C40_pyramid cam s.levelNum (by omega)
  refine ⟨cams, c1, ?_⟩
  unfold construct at'
  rw [List.getElem?_eq_none (by omega)]
  rfl

/-- C95 is violated for seven or more levels: no frame can be tracked, since frames only have six levels. -/
theorem C95_seven_levels_violated (solve : Solver) (t : Tracker) (h7 : 7 ≤ t.s.levelNum) (interp : Pyr.Img Nat → Interp)
    (img : Pyr.Img Nat) (coarse : Motion3) (coarseLight : AffLight) :
    ∃ frame, newFrame interp img = .ok frame ∧ trackFrame solve t frame coarse coarseLight = .error .ub := by
  obtain ⟨frame, f1, f2⟩ := newFrame_length interp img
  refine ⟨frame, f1, ?_⟩
  obtain ⟨n, hn⟩ : ∃ n, t.s.levelNum = n + 1 := ⟨t.s.levelNum - 1, by omega⟩
  have hl : trackLevel t.s solve t.camPyr t.base frame coarse coarseLight n = .error .ub := by
    have h4 : at' frame n = .error .ub := by
      unfold at'
      rw [List.getElem?_eq_none (by omega)]
    unfold trackLevel
    cases h1 : at' t.camPyr n with
    | error e => rw [(at'_error h1).1]; rfl
    | ok c =>
    cases h2 : at' t.base.images n with
    | error e => rw [(at'_error h2).1]; rfl
    | ok i =>
    cases h3 : at' t.base.depths n with
    | error e => rw [(at'_error h3).1]; rfl
    | ok d => simp only [bind, Except.bind, h4]
  unfold trackFrame
  rw [hn]
  unfold trackLevels
  rw [hl]
  rfl

/-! ### Witnesses -/

open Base in
/-- Settings with the default values, three levels, and weighting by gradients if wanted. -/
noncomputable def exSettings (n : Nat) (grad : Bool) : Settings where
  levelNum := n
  useGradWeighting := grad
  optimizeAffineLight := false
  minAffineLightA := -1 / 10
  maxAffineLightA := 1 / 10
  minAffineLightB := -26
  maxAffineLightB := 26
  outlierDiff := 12
  gradWeightingC := 50

/-- A base frame of 200 × 200 pixels with one depth. -/
theorem exBase (n : Nat) (x y d : ℝ) (hx : 0 ≤ x ∧ x < 200) (hy : 0 ≤ y ∧ y < 200) :
    ∃ images depths, Pyr.depthedImagePyramid ⟨200, 200, fun _ _ => 7⟩ (n + 1) [(x, y)] [d] [1] = .ok (images, depths) ∧
      ∀ l im r c, depths[l]? = some im → r < im.rows → c < im.cols → Pyr.InCell l r c ⟨x, y, d, 1⟩ → im.px r c = d := by
  obtain ⟨im, h1, -, -⟩ := Pyr.C42_pyramid ⟨200, 200, fun _ _ => 7⟩ n
  obtain ⟨ls, l1, -, l3⟩ := Pyr.C43_cells_partial 200 200 n [⟨x, y, d, 1⟩]
    (by intro p hp; rw [List.mem_singleton] at hp; subst hp; exact ⟨hx.1, by exact_mod_cast hx.2, hy.1, by exact_mod_cast hy.2⟩)
    (by intro p hp; rw [List.mem_singleton] at hp; subst hp; norm_num)
  refine ⟨im, ls, ?_, ?_⟩
  · unfold Pyr.depthedImagePyramid
    rw [h1]
    simp only [List.length_cons, List.length_nil, and_self, if_true, List.zip_cons_cons, List.zip_nil_left, List.map_cons,
      List.map_nil]
    rw [l1]
  · intro l im r c hl hr hc hin
    have := ((l3 l im hl).2.2 r c hr hc).2 ⟨_, List.mem_singleton.2 rfl, hin⟩ d d (by
      intro p hp _
      rw [List.mem_singleton] at hp
      subst hp
      exact ⟨le_refl _, le_refl _⟩)
    linarith [this.1, this.2]

open Base in
/-- C96 is violated: weighting by gradients is undefined although the only point is two pixels away from the border, as points must be:
on the third level its pixel is at the border. -/
theorem C96_violated (solve : Solver) (interp : Pyr.Img Nat → Interp) :
    ∃ (images : List (Pyr.Img Nat)) (depths : List (Pyr.Img ℝ)) (cams : List Cam.Cam) (t : Tracker) (log : List (Nat × Event))
      (frame : Frame) (coarse : Motion3),
      Pyr.depthedImagePyramid ⟨200, 200, fun _ _ => 7⟩ 3 [(2, 2)] [5] [1] = .ok (images, depths) ∧
      Cam.camPyr fisheye 3 = .ok cams ∧ construct (exSettings 3 true) cams ⟨images, depths⟩ 1 = .ok (t, log) ∧
      newFrame interp ⟨200, 200, fun _ _ => 7⟩ = .ok frame ∧ Base.Spec.Orthogonal coarse.rot ∧
      trackFrame solve t frame coarse AffLight.identity = .error .ub := by
  obtain ⟨images, depths, hb, hd⟩ := exBase 2 2 2 5 (by norm_num) (by norm_num)
  obtain ⟨cams, c1, c2, c3⟩ := Cam.C40_pyramid fisheye 3 (by omega)
  obtain ⟨frame, f1, f2⟩ := newFrame_length interp ⟨200, 200, fun _ _ => 7⟩
  obtain ⟨b1, b2⟩ := base_sizes hb
  have g1 : 2 < cams.length := by omega
  have g2 : 2 < images.length := by omega
  have g3 : 2 < depths.length := by have := b2.1; simp only at this; omega
  have g4 : 2 < frame.length := by omega
  obtain ⟨c, hc⟩ : ∃ c, c = cams[2] := ⟨_, rfl⟩
  obtain ⟨q1, q2, -⟩ := c3 2 c (by rw [hc]; exact List.getElem?_eq_getElem g1)
  obtain ⟨ls, i1, -, i3⟩ := Pyr.C42_pyramid ⟨200, 200, fun _ _ => 7⟩ 2
  have himg : ls = images := by
    unfold Pyr.depthedImagePyramid at hb
    rw [i1] at hb
    simp only at hb
    split at hb
    · split at hb
      · cases hb
      · cases hb; rfl
    · cases hb
  subst himg
  obtain ⟨s1, s2, -⟩ := i3 2 _ (List.getElem?_eq_getElem g2)
  obtain ⟨e1, e2⟩ := b2.2 2 _ _ (List.getElem?_eq_getElem g2) (List.getElem?_eq_getElem g3)
  have s1' : ls[2].rows = 50 := s1
  have s2' : ls[2].cols = 50 := s2
  have hpx : depths[2].px 0 0 = 5 := by
    refine hd 2 _ 0 0 (List.getElem?_eq_getElem g3) (by omega) (by omega) ?_
    unfold Pyr.InCell
    norm_num
  obtain ⟨v, hv⟩ : ∃ v, v = pointOf c 0 0 5 := ⟨_, rfl⟩
  have hm : Matched c ls[2] depths[2] (shift (⟨0, 0, 2⟩ - v)) (0, 0) := by
    refine ⟨by omega, by omega, by simp only; rw [hpx]; norm_num, ?_⟩
    simp only [hpx, ← hv, act_shift]
    have : v + (⟨0, 0, 2⟩ - v) = (⟨0, 0, 2⟩ : V3) := by ext <;> simp
    rw [this, q1, map_axis]
    have hw : c.width = 50 ∧ c.height = 50 := by
      have : cams = (List.range 3).map (Cam.atLevel fisheye) := by
        unfold Cam.camPyr at c1
        rw [if_neg (by omega)] at c1
        cases c1; rfl
      subst this
      subst hc
      exact ⟨rfl, rfl⟩
    unfold Cam.isOnImage
    rw [hw.1, hw.2]
    norm_num
  refine ⟨ls, depths, cams, ⟨exSettings 3 true, cams, ⟨ls, depths⟩, 1⟩, tell 1 .newBaseFrame, frame, shift (⟨0, 0, 2⟩ - v), hb,
    c1, ?_, f1, orthogonal_shift _, ?_⟩
  · unfold construct
    rw [at'_lt (by omega)]
    rfl
  · have hlev := C96_level (s := exSettings 3 true) (solve := solve) (c := c) (img := ls[2]) (depths := depths[2])
      (tracked := frame[2]) (m := shift (⟨0, 0, 2⟩ - v)) (l := AffLight.identity) (i := 2) e1 e2
    have herr : trackPyrLevel (exSettings 3 true) solve c ls[2] depths[2] frame[2] (shift (⟨0, 0, 2⟩ - v)) AffLight.identity 2
        = .error .ub := by
      cases hr : trackPyrLevel (exSettings 3 true) solve c ls[2] depths[2] frame[2] (shift (⟨0, 0, 2⟩ - v))
          AffLight.identity 2 with
      | error e => rw [hlev.2 e hr]
      | ok r =>
        have := (hlev.1.1 ⟨r, hr⟩ rfl (0, 0) hm).1
        exact absurd this (lt_irrefl 0)
    have hl : trackLevel (exSettings 3 true) solve cams ⟨ls, depths⟩ frame (shift (⟨0, 0, 2⟩ - v)) AffLight.identity 2
        = .error .ub := by
      unfold trackLevel
      rw [at'_lt g1, at'_lt g2, at'_lt g3, at'_lt g4]
      subst hc
      exact herr
    unfold trackFrame
    have hn : (exSettings 3 true).levelNum = 2 + 1 := rfl
    simp only [hn]
    unfold trackLevels
    rw [hl]
    rfl

/-- The solver that does nothing. -/
def idle : Solver := fun P => (P.motion, P.affLight)

theorem idle_solver : IsSolver idle where
  light_constant := fun _ _ => rfl
  rotation := fun _ h => h
  bounds := fun _ h => h
  descent := fun _ _ => le_refl _

open Base in
/-- Non-vacuity of C92 to C96: a base frame with one depth in the middle, a tracker with two levels; the frame is tracked, the solver
meets its specification, the light transform is within the bounds, and the pixel with the depth is matched on the finest level. -/
theorem exTracked (interp : Pyr.Img Nat → Interp) : ∃ (t : Tracker) (frame : Frame) (res : Motion3 × AffLight × List (Nat × Event))
    (c : Cam.Cam) (img : Pyr.Img Nat) (depths : Pyr.Img ℝ) (tracked : Interp), t.observers = 1 ∧
    newFrame interp ⟨200, 200, fun _ _ => 7⟩ = .ok frame ∧ IsSolver idle ∧ LightAllowed t.s AffLight.identity ∧
    0 < t.s.gradWeightingC ∧ 0 < t.s.outlierDiff ∧ 2 ≤ t.s.levelNum ∧ t.s.levelNum ≤ 6 ∧ t.s.useGradWeighting = false ∧
    trackFrame idle t frame (shift 0) AffLight.identity = .ok res ∧ Base.Spec.Orthogonal (shift 0).rot ∧
    LevelAt t frame 0 c img depths tracked ∧ Matched c img depths (shift 0) (100, 100) := by
  obtain ⟨images, depths, hb, hd⟩ := exBase 1 100 100 2 (by norm_num) (by norm_num)
  obtain ⟨cams, c1, c2, -⟩ := Cam.C40_pyramid fisheye 2 (by omega)
  obtain ⟨frame, f1, f2⟩ := newFrame_length interp ⟨200, 200, fun _ _ => 7⟩
  obtain ⟨b1, b2⟩ := base_sizes hb
  obtain ⟨t, ht⟩ : ∃ t : Tracker, t = ⟨exSettings 2 false, cams, ⟨images, depths⟩, 1⟩ := ⟨_, rfl⟩
  obtain ⟨res, hres⟩ := trackFrame_ok idle t frame (shift 0) AffLight.identity (by subst ht; rfl) (by subst ht; exact b2)
    (by subst ht; exact c2.ge) (by subst ht; exact b1.ge) (by subst ht; show 2 ≤ _; omega)
  have g1 : 0 < cams.length := by omega
  have g2 : 0 < images.length := by omega
  have g3 : 0 < depths.length := by have := b2.1; simp only at this; omega
  have g4 : 0 < frame.length := by omega
  obtain ⟨ls, i1, -, i3⟩ := Pyr.C42_pyramid ⟨200, 200, fun _ _ => 7⟩ 1
  have himg : ls = images := by
    unfold Pyr.depthedImagePyramid at hb
    rw [i1] at hb
    simp only at hb
    split at hb
    · split at hb
      · cases hb
      · cases hb; rfl
    · cases hb
  subst himg
  obtain ⟨s1, s2, -⟩ := i3 0 _ (List.getElem?_eq_getElem g2)
  obtain ⟨e1, e2⟩ := b2.2 0 _ _ (List.getElem?_eq_getElem g2) (List.getElem?_eq_getElem g3)
  have s1' : ls[0].rows = 200 := s1
  have s2' : ls[0].cols = 200 := s2
  have hpx : depths[0].px 100 100 = 2 := by
    refine hd 0 _ 100 100 (List.getElem?_eq_getElem g3) (by omega) (by omega) ?_
    unfold Pyr.InCell
    norm_num
  have hc : cams[0] = Cam.atLevel fisheye 0 := by
    have : cams = (List.range 2).map (Cam.atLevel fisheye) := by
      unfold Cam.camPyr at c1
      rw [if_neg (by omega)] at c1
      cases c1; rfl
    subst this
    rfl
  have hc' : Cam.atLevel fisheye 0 = fisheye := by
    unfold Cam.atLevel fisheye
    simp
  refine ⟨t, frame, res, cams[0], ls[0], depths[0], frame[0], by subst ht; rfl, f1, idle_solver, ?_, ?_, ?_, ?_, ?_, ?_, hres, orthogonal_shift _,
    ?_, ?_⟩
  · subst ht
    unfold LightAllowed exSettings AffLight.identity
    norm_num
  · subst ht; unfold exSettings; norm_num
  · subst ht; unfold exSettings; norm_num
  · subst ht; exact le_refl 2
  · subst ht; show 2 ≤ 6; omega
  · subst ht; rfl
  · subst ht
    exact ⟨List.getElem?_eq_getElem g1, List.getElem?_eq_getElem g2, List.getElem?_eq_getElem g3, List.getElem?_eq_getElem g4⟩
  · refine ⟨by omega, by omega, by simp only; rw [hpx]; norm_num, ?_⟩
    simp only [hpx, hc, hc', act_shift]
    unfold pointOf
    have h1 : (2 : ℝ) • (Cam.unmap fisheye ⟨((100 : Nat) : ℝ), ((100 : Nat) : ℝ)⟩).normalized + 0 = (⟨0, 0, 2⟩ : V3) := by
      have := centre_ray
      push_cast
      rw [this]
      ext <;> simp
    rw [h1, map_axis]
    unfold Cam.isOnImage fisheye
    norm_num

end Mdso.Track
