import Verif.Model.GenPlyRun
import Verif.Spec.GenPlyRun
import Verif.Lemmas.TrajectoryWriter
import Verif.Lemmas.Session

/-!
# Lemmas about runs of `genply`
-/

set_option autoImplicit false

namespace Mdso.GenPlyRun

open Mdso.Dso Mdso.Traj Mdso.FrameSpec

variable {G : Type}

/-! ## The disk -/

/-- What is appended to a file. -/
def tail (p : Path) (es : List (Effect G)) : List (Item G) :=
  es.flatMap fun e => match e with | .app q items => if q = p then items else [] | _ => []

/-- The file is not replaced. -/
def Quiet (p : Path) (es : List (Effect G)) : Prop :=
  ∀ e ∈ es, (∀ items, e ≠ .put p items) ∧ e ≠ .opened p ∧ ∀ items, e ≠ .closed p items

theorem tail_append (p : Path) (a b : List (Effect G)) : tail p (a ++ b) = tail p a ++ tail p b := by simp [tail]

theorem Quiet.append {p : Path} {a b : List (Effect G)} (ha : Quiet p a) (hb : Quiet p b) : Quiet p (a ++ b) := by
  intro e he
  rcases List.mem_append.1 he with h | h
  · exact ha e h
  · exact hb e h

theorem execAll_append (d : Disk G) (a b : List (Effect G)) : d.execAll (a ++ b) = (d.execAll a).execAll b := by
  simp [Disk.execAll, List.foldl_append]

theorem exec_isDir {d : Disk G} {p : Path} (h : d.isDir p) (e : Effect G) : (d.exec e).isDir p := by
  cases e with
  | mkdirs q =>
    rcases h with h | h
    · exact Or.inl h
    · exact Or.inr (List.mem_append_right _ h)
  | put q items => unfold Disk.exec; dsimp only; split <;> exact h
  | app q items => unfold Disk.exec; dsimp only; split <;> exact h
  | opened q => unfold Disk.exec; dsimp only; split <;> exact h
  | closed q items => unfold Disk.exec; dsimp only; split <;> exact h

theorem execAll_isDir : ∀ (es : List (Effect G)) {d : Disk G} {p : Path}, d.isDir p → (d.execAll es).isDir p
  | [], _, _, h => h
  | e :: es, d, _, h => execAll_isDir es (d := d.exec e) (exec_isDir h e)

theorem mkdirs_isDir (d : Disk G) (p : Path) {q : Path} (h : q <+: p) : (d.exec (.mkdirs p)).isDir q := by
  refine Or.inr (List.mem_append_left _ (List.mem_map.2 ⟨q.length, ?_, ?_⟩))
  · have := h.length_le; simp; omega
  · exact (List.prefix_iff_eq_take.1 h).symm

/-- In an existing directory, a file that is not replaced is appended to. -/
theorem exec_content {p : Path} : ∀ (es : List (Effect G)) {d : Disk G}, Quiet p es → d.isDir p.dropLast →
    content (d.execAll es) p = content d p ++ tail p es := by
  intro es
  induction es with
  | nil => intro d _ _; simp [Disk.execAll, tail]
  | cons e es ih =>
    intro d hq hd
    have hq' : Quiet p es := fun x hx => hq x (List.mem_cons_of_mem _ hx)
    have h1 := ih (d := d.exec e) hq' (exec_isDir hd e)
    have h2 : content (d.exec e) p = content d p ++ tail p [e] := by
      obtain ⟨n1, n2, n3⟩ := hq e (by simp)
      cases e with
      | mkdirs q => simp [Disk.exec, content, tail]
      | put q items =>
        have hne : p ≠ q := fun h => n1 items (by rw [h])
        unfold Disk.exec
        dsimp only
        split <;> simp [content, tail, Function.update_of_ne hne]
      | opened q =>
        have hne : p ≠ q := fun h => n2 (by rw [h])
        unfold Disk.exec
        dsimp only
        split <;> simp [content, tail, Function.update_of_ne hne]
      | closed q items =>
        have hne : p ≠ q := fun h => n3 items (by rw [h])
        unfold Disk.exec
        dsimp only
        split <;> simp [content, tail, Function.update_of_ne hne]
      | app q items =>
        by_cases hne : p = q
        · subst hne
          unfold Disk.exec
          dsimp only
          rw [if_pos hd]
          simp [content, tail]
        · unfold Disk.exec
          dsimp only
          split <;> simp [content, tail, Function.update_of_ne hne, Ne.symm hne]
    have h3 : tail p (e :: es) = tail p [e] ++ tail p es := by rw [← tail_append]; rfl
    rw [h3, ← List.append_assoc, ← h2, ← h1]
    rfl

/-- The effects never make the directory of the file, nor close it. -/
def NoDir (p : Path) (es : List (Effect G)) : Prop :=
  ∀ e ∈ es, (∀ q, e = .mkdirs q → ¬ p.dropLast <+: q) ∧ ∀ items, e ≠ .closed p items

/-- In a directory that does not exist nothing is written. -/
theorem exec_nowhere {p : Path} : ∀ (es : List (Effect G)) {d : Disk G}, NoDir p es → ¬ d.isDir p.dropLast →
    (d.execAll es).files p = d.files p ∧ ¬ (d.execAll es).isDir p.dropLast := by
  intro es
  induction es with
  | nil => intro d _ h; exact ⟨rfl, h⟩
  | cons e es ih =>
    intro d hq hd
    have hq' : NoDir p es := fun x hx => hq x (List.mem_cons_of_mem _ hx)
    have h2 : (d.exec e).files p = d.files p ∧ ¬ (d.exec e).isDir p.dropLast := by
      obtain ⟨n1, n2⟩ := hq e (by simp)
      cases e with
      | mkdirs q =>
        refine ⟨rfl, fun h => ?_⟩
        rcases h with h | h
        · exact hd (Or.inl h)
        · rcases List.mem_append.1 h with h | h
          · obtain ⟨k, -, hk⟩ := List.mem_map.1 h
            exact n1 q rfl (hk ▸ List.take_prefix _ _)
          · exact hd (Or.inr h)
      | put q items =>
        by_cases hne : p = q
        · subst hne; unfold Disk.exec; dsimp only; rw [if_neg hd]; exact ⟨rfl, hd⟩
        · unfold Disk.exec; dsimp only; split
          · exact ⟨Function.update_of_ne hne _ _, hd⟩
          · exact ⟨rfl, hd⟩
      | opened q =>
        by_cases hne : p = q
        · subst hne; unfold Disk.exec; dsimp only; rw [if_neg hd]; exact ⟨rfl, hd⟩
        · unfold Disk.exec; dsimp only; split
          · exact ⟨Function.update_of_ne hne _ _, hd⟩
          · exact ⟨rfl, hd⟩
      | closed q items =>
        have hne : p ≠ q := fun h => n2 items (by rw [h])
        unfold Disk.exec; dsimp only; split
        · exact ⟨Function.update_of_ne hne _ _, hd⟩
        · exact ⟨rfl, hd⟩
      | app q items =>
        by_cases hne : p = q
        · subst hne; unfold Disk.exec; dsimp only; rw [if_neg hd]; exact ⟨rfl, hd⟩
        · unfold Disk.exec; dsimp only; split
          · exact ⟨Function.update_of_ne hne _ _, hd⟩
          · exact ⟨rfl, hd⟩
    have h1 := ih (d := d.exec e) hq' h2.2
    exact ⟨h1.1.trans h2.1, h1.2⟩

/-- What an effect leaves in a file that is only ever written as a whole. -/
def lastPut (p : Path) : List (Effect G) → Option (List (Item G)) → Option (List (Item G))
  | [], old => old
  | .put q items :: es, old => lastPut p es (if q = p then some items else old)
  | _ :: es, old => lastPut p es old

theorem lastPut_append (p : Path) : ∀ (a b : List (Effect G)) (old : Option (List (Item G))),
    lastPut p (a ++ b) old = lastPut p b (lastPut p a old)
  | [], _, _ => rfl
  | e :: a, b, old => by
    cases e <;> exact lastPut_append p a b _

/-- The file is only written as a whole. -/
def OnlyPut (p : Path) (es : List (Effect G)) : Prop :=
  ∀ e ∈ es, (∀ items, e ≠ .app p items) ∧ e ≠ .opened p ∧ ∀ items, e ≠ .closed p items

theorem OnlyPut.append {p : Path} {a b : List (Effect G)} (ha : OnlyPut p a) (hb : OnlyPut p b) : OnlyPut p (a ++ b) := by
  intro e he
  rcases List.mem_append.1 he with h | h
  · exact ha e h
  · exact hb e h

theorem exec_put {p : Path} : ∀ (es : List (Effect G)) {d : Disk G}, OnlyPut p es → d.isDir p.dropLast →
    (d.execAll es).files p = lastPut p es (d.files p) := by
  intro es
  induction es with
  | nil => intro d _ _; rfl
  | cons e es ih =>
    intro d hq hd
    have hq' : OnlyPut p es := fun x hx => hq x (List.mem_cons_of_mem _ hx)
    have h1 := ih (d := d.exec e) hq' (exec_isDir hd e)
    refine Eq.trans h1 ?_
    obtain ⟨n1, n2, n3⟩ := hq e (by simp)
    cases e with
    | mkdirs q => rfl
    | put q items =>
      show _ = lastPut p es (if q = p then some items else d.files p)
      congr 1
      by_cases hne : q = p
      · subst hne; unfold Disk.exec; dsimp only; rw [if_pos hd, if_pos rfl]; simp
      · rw [if_neg hne]
        unfold Disk.exec; dsimp only; split
        · exact Function.update_of_ne (Ne.symm hne) _ _
        · rfl
    | opened q =>
      have hne : p ≠ q := fun h => n2 (by rw [h])
      show _ = lastPut p es (d.files p)
      congr 1
      unfold Disk.exec; dsimp only; split
      · exact Function.update_of_ne hne _ _
      · rfl
    | closed q items =>
      have hne : p ≠ q := fun h => n3 items (by rw [h])
      show _ = lastPut p es (d.files p)
      congr 1
      unfold Disk.exec; dsimp only; split
      · exact Function.update_of_ne hne _ _
      · rfl
    | app q items =>
      have hne : p ≠ q := fun h => n1 items (by rw [h])
      show _ = lastPut p es (d.files p)
      congr 1
      unfold Disk.exec; dsimp only; split
      · exact Function.update_of_ne hne _ _
      · rfl

/-! ## The files of poses -/

/-- The four files of poses. -/
def posePaths (f : Flags) : List Path := [f.trackedPos, f.trackedMatrix, f.gtPos, f.gtMatrix]

/-- What the writers have written, file by file. -/
def written [Group G] (s : St G) : List (List (Item G)) :=
  [poseItems (s.w.lines.map fun l => (l.1, l.2⁻¹)), poseItems s.w.lines, poseItems s.gt.lines, poseItems s.gt.matrixLines]

/-- The effects bring the four files from one state of the writers to another. -/
structure Booked [Group G] (f : Flags) (s s' : St G) (es : List (Effect G)) : Prop where
  pos : poseItems (s'.w.lines.map fun l => (l.1, l.2⁻¹)) = poseItems (s.w.lines.map fun l => (l.1, l.2⁻¹)) ++ tail f.trackedPos es
  matrix : poseItems s'.w.lines = poseItems s.w.lines ++ tail f.trackedMatrix es
  gtPos : poseItems s'.gt.lines = poseItems s.gt.lines ++ tail f.gtPos es
  gtMatrix : poseItems s'.gt.matrixLines = poseItems s.gt.matrixLines ++ tail f.gtMatrix es
  quiet : ∀ p ∈ posePaths f, Quiet p es

theorem Booked.trans [Group G] {f : Flags} {a b c : St G} {es es' : List (Effect G)} (h : Booked f a b es) (h' : Booked f b c es') :
    Booked f a c (es ++ es') :=
  ⟨by rw [h'.pos, h.pos, tail_append, List.append_assoc], by rw [h'.matrix, h.matrix, tail_append, List.append_assoc],
    by rw [h'.gtPos, h.gtPos, tail_append, List.append_assoc], by rw [h'.gtMatrix, h.gtMatrix, tail_append, List.append_assoc],
    fun p hp => (h.quiet p hp).append (h'.quiet p hp)⟩

/-- Effects that do not touch these files. -/
def Aside (f : Flags) (es : List (Effect G)) : Prop := ∀ p ∈ posePaths f, Quiet p es ∧ tail p es = []

theorem Booked.aside [Group G] {f : Flags} {s s' : St G} {es : List (Effect G)} (h : Aside f es) (hw : s'.w = s.w) (hg : s'.gt = s.gt) :
    Booked f s s' es := by
  refine ⟨?_, ?_, ?_, ?_, fun p hp => (h p hp).1⟩
  · rw [(h _ (by simp [posePaths])).2, hw, List.append_nil]
  · rw [(h _ (by simp [posePaths])).2, hw, List.append_nil]
  · rw [(h _ (by simp [posePaths])).2, hg, List.append_nil]
  · rw [(h _ (by simp [posePaths])).2, hg, List.append_nil]

theorem put_prefix [Group G] {w w' : WriterGT G} {n : Int} (h : w.put n = .ok w') :
    w.lines <+: w'.lines ∧ w.matrixLines <+: w'.matrixLines := by
  unfold WriterGT.put at h
  split at h
  · cases h; exact ⟨List.prefix_append _ _, List.prefix_append _ _⟩
  · cases h

theorem puts_prefix [Group G] : ∀ (ns : List Int) {w w' : WriterGT G}, ns.foldlM WriterGT.put w = .ok w' →
    w.lines <+: w'.lines ∧ w.matrixLines <+: w'.matrixLines
  | [], w, w', h => by cases h; exact ⟨List.prefix_refl _, List.prefix_refl _⟩
  | n :: ns, w, w', h => by
    rw [List.foldlM_cons] at h
    cases h1 : w.put n with
    | error e => rw [h1] at h; cases h
    | ok w1 =>
      rw [h1] at h
      have a := put_prefix h1
      have b := puts_prefix ns (w := w1) h
      exact ⟨a.1.trans b.1, a.2.trans b.2⟩

theorem gstep_prefix [Group G] {align : G → G → G → G → G → G} {w w' : WriterGT G} {e : Event G} (h : w.step align e = .ok w') :
    w.lines <+: w'.lines ∧ w.matrixLines <+: w'.matrixLines := by
  cases e with
  | initialized kfs =>
    unfold WriterGT.step WriterGT.initialized at h
    dsimp only at h
    split at h
    · split at h
      · split at h
        · cases h; exact ⟨List.prefix_refl _, List.prefix_refl _⟩
        · cases h
      · cases h
    · cases h
  | marginalized kfs => exact puts_prefix _ h
  | destructed kfs => exact puts_prefix _ h
  | newFrame n => cases h; exact ⟨List.prefix_refl _, List.prefix_refl _⟩
  | newKeyFrame kf => cases h; exact ⟨List.prefix_refl _, List.prefix_refl _⟩

theorem prefix_drop {α : Type} {a b : List α} (h : a <+: b) : b = a ++ b.drop a.length := by
  obtain ⟨t, rfl⟩ := h
  simp

theorem posePaths_ne (f : Flags) : f.trackedPos ≠ f.trackedMatrix ∧ f.trackedPos ≠ f.gtPos ∧ f.trackedPos ≠ f.gtMatrix ∧
    f.trackedMatrix ≠ f.gtPos ∧ f.trackedMatrix ≠ f.gtMatrix ∧ f.gtPos ≠ f.gtMatrix := by
  simp [Flags.trackedPos, Flags.trackedMatrix, Flags.gtPos, Flags.gtMatrix]

theorem poseItems_append (a b : List (Int × G)) : poseItems (a ++ b) = poseItems a ++ poseItems b := by simp [poseItems]

theorem onEvent_booked [Group G] {f : Flags} {wd : World G} {s : St G} {e : Event G} {gt' : WriterGT G}
    (h : s.gt.step wd.align e = .ok gt') :
    ∃ es, onEvent f wd s e = (es, .ok { s with w := s.w.step wd.infInt e, gt := gt' }) ∧
      Booked f s { s with w := s.w.step wd.infInt e, gt := gt' } es := by
  obtain ⟨g1, g2⟩ := gstep_prefix h
  have hw := step_prefix wd.infInt s.w e
  obtain ⟨n1, n2, n3, n4, n5, n6⟩ := posePaths_ne f
  refine ⟨writerEffects f s.w (s.w.step wd.infInt e) e ++ writerGTEffects f s.gt gt' e, by unfold onEvent; simp only [h], ?_⟩
  have key : (∃ kfs, e = .marginalized kfs ∨ e = .destructed kfs) ∨
      (writerEffects f s.w (s.w.step wd.infInt e) e = [] ∧ writerGTEffects f s.gt gt' e = [] ∧ (s.w.step wd.infInt e).lines = s.w.lines ∧
        gt'.lines = s.gt.lines ∧ gt'.matrixLines = s.gt.matrixLines) := by
    cases e with
    | marginalized kfs => exact Or.inl ⟨kfs, Or.inl rfl⟩
    | destructed kfs => exact Or.inl ⟨kfs, Or.inr rfl⟩
    | newFrame n => cases h; exact Or.inr ⟨rfl, rfl, rfl, rfl, rfl⟩
    | newKeyFrame kf => cases h; exact Or.inr ⟨rfl, rfl, rfl, rfl, rfl⟩
    | initialized kfs =>
      refine Or.inr ⟨rfl, rfl, rfl, ?_⟩
      unfold WriterGT.step WriterGT.initialized at h
      dsimp only at h
      split at h
      · split at h
        · split at h
          · cases h; exact ⟨rfl, rfl⟩
          · cases h
        · cases h
      · cases h
  rcases key with ⟨kfs, hk⟩ | ⟨k1, k2, k3, k4, k5⟩
  · have he : writerEffects f s.w (s.w.step wd.infInt e) e ++ writerGTEffects f s.gt gt' e =
        [.app f.trackedPos (poseItems (((s.w.step wd.infInt e).lines.drop s.w.lines.length).map fun l => (l.1, l.2⁻¹))),
          .app f.trackedMatrix (poseItems ((s.w.step wd.infInt e).lines.drop s.w.lines.length)),
          .app f.gtPos (poseItems (gt'.lines.drop s.gt.lines.length)), .app f.gtMatrix (poseItems (gt'.matrixLines.drop s.gt.matrixLines.length))] := by
      rcases hk with rfl | rfl <;> rfl
    rw [he]
    refine ⟨?_, ?_, ?_, ?_, ?_⟩
    · simp only [tail, List.flatMap_cons, List.flatMap_nil, if_true, if_neg n1.symm, if_neg n2.symm, if_neg n3.symm, List.append_nil]
      rw [← poseItems_append, ← List.map_append, ← prefix_drop hw]
    · simp only [tail, List.flatMap_cons, List.flatMap_nil, if_true, if_neg n1, if_neg n4.symm, if_neg n5.symm, List.append_nil, List.nil_append]
      rw [← poseItems_append, ← prefix_drop hw]
    · simp only [tail, List.flatMap_cons, List.flatMap_nil, if_true, if_neg n2, if_neg n4, if_neg n6.symm, List.append_nil, List.nil_append]
      rw [← poseItems_append, ← prefix_drop g1]
    · simp only [tail, List.flatMap_cons, List.flatMap_nil, if_true, if_neg n3, if_neg n5, if_neg n6, List.append_nil, List.nil_append]
      rw [← poseItems_append, ← prefix_drop g2]
    · intro p _ x hx
      simp only [List.mem_cons, List.not_mem_nil, or_false] at hx
      rcases hx with rfl | rfl | rfl | rfl <;> simp
  · rw [k1, k2]
    refine ⟨?_, ?_, ?_, ?_, fun p _ x hx => by simp at hx⟩
    · simp [tail, k3]
    · simp [tail, k3]
    · simp [tail, k4]
    · simp [tail, k5]

theorem onEvents_booked [Group G] {f : Flags} {wd : World G} : ∀ (evs : List (Event G)) {s : St G} {gt' : WriterGT G},
    evs.foldlM (WriterGT.step wd.align) s.gt = .ok gt' →
    ∃ es, onEvents f wd evs s = (es, .ok { s with w := evs.foldl (Writer.step wd.infInt) s.w, gt := gt' }) ∧
      Booked f s { s with w := evs.foldl (Writer.step wd.infInt) s.w, gt := gt' } es := by
  intro evs
  induction evs with
  | nil =>
    intro s gt' h
    cases h
    exact ⟨[], rfl, Booked.aside (fun p _ => ⟨fun x hx => by simp at hx, rfl⟩) rfl rfl⟩
  | cons e evs ih =>
    intro s gt' h
    rw [List.foldlM_cons] at h
    cases h1 : s.gt.step wd.align e with
    | error er => rw [h1] at h; cases h
    | ok g1 =>
      rw [h1] at h
      obtain ⟨es1, e1, b1⟩ := onEvent_booked (f := f) (wd := wd) (s := s) h1
      obtain ⟨es2, e2, b2⟩ := ih (s := { s with w := s.w.step wd.infInt e, gt := g1 }) h
      refine ⟨es1 ++ es2, ?_, b1.trans b2⟩
      simp only [onEvents, andThen, e1, e2, List.foldl_cons]

/-! ## One frame -/

theorem announced_append (a b : List (Event G)) : announcedOf (a ++ b) = announcedOf a ++ announcedOf b := by simp [announcedOf]

theorem any_announced (evs : List (Event G)) : evs.any isNewKeyFrame = decide (0 < (announcedOf evs).length) := by
  induction evs with
  | nil => rfl
  | cons e evs ih =>
    have h : announcedOf (e :: evs) = announcedOf [e] ++ announcedOf evs := announced_append [e] evs
    rw [List.any_cons, ih, h, List.length_append]
    cases e <;> simp [isNewKeyFrame, announcedOf]

theorem announced_length [Group G] {set : Settings} {s : State G} {ns : List Int} (hi : Inv set s ns) :
    (announcedOf s.log).length = (book (policyOf set) ns).length - 1 := by
  rw [hi.announced]
  split <;> simp [Book.keyFrames]

theorem book_zero_or (set : Settings) (ns : List Int) : (book (policyOf set) ns).length = 0 ∨ 2 ≤ (book (policyOf set) ns).length := by
  by_cases h : (policyOf set).skip + 2 ≤ ns.length
  · exact Or.inr (book_length h)
  · left; rw [book_lt (by omega)]; rfl

theorem addFrame_step [Group G] {set : Settings} (hv : Valid set) {s : State G} {ns : List Int} (hi : Inv set s ns) {x : FrameIn G}
    (ha : Acceptable ns x.num) (hm : x.num < intMax) (hd : destructedOf s.log = []) :
    ∃ s' r evs, addFrame set s x = .ok (s', r) ∧ Inv set s' (ns ++ [x.num]) ∧ s'.log = s.log ++ evs ∧ destructedOf s'.log = [] ∧
      evs.any isNewKeyFrame = makesKeyFrame set ns x.num := by
  have key : ∃ s' r evs, addFrame set s x = .ok (s', r) ∧ Inv set s' (ns ++ [x.num]) ∧ s'.log = s.log ++ evs ∧ destructedOf evs = [] := by
    rcases Nat.lt_trichotomy ns.length ((policyOf set).skip + 1) with hl | hl | hl
    · obtain ⟨s', e, hi', hlog⟩ := step_skip hi ha hm hl
      exact ⟨s', none, [], e, hi', by rw [hlog, (hi.ini (by omega)).1]; rfl, rfl⟩
    · obtain ⟨s', k0, k1, base, e, hi', hlog, -⟩ := step_init hv hi ha hm hl
      exact ⟨s', _, _, e, hi', by rw [(hi.ini (by omega)).1]; exact hlog, rfl⟩
    · obtain ⟨s', evs, e, hi', hlog, hev⟩ := step_track hv hi ha hm (by omega)
      refine ⟨s', _, _, e, hi', hlog, ?_⟩
      rcases hev with rfl | ⟨marg, base, rfl⟩
      · rfl
      · split <;> simp [destructedOf]
  obtain ⟨s', r, evs, e, hi', hlog, hde⟩ := key
  refine ⟨s', r, evs, e, hi', hlog, ?_, ?_⟩
  · rw [hlog]
    have : destructedOf (s.log ++ evs) = destructedOf s.log ++ destructedOf evs := by simp [destructedOf]
    rw [this, hd, hde]; rfl
  · have h1 := announced_length hi
    have h2 := announced_length hi'
    rw [hlog, announced_append, List.length_append] at h2
    have h3 := book_zero_or set ns
    have h4 := book_zero_or set (ns ++ [x.num])
    rw [any_announced, makesKeyFrame, decide_eq_decide]
    omega

/-- The state after some frames. -/
structure RInv [Group G] (wd : World G) (done : List Int) (s : St G) : Prop where
  inv : Inv wd.set s.sys done
  alive : destructedOf s.sys.log = []
  w : s.w = writerOf wd.infInt s.sys.log
  gt : writerGTOf wd.align wd.gt s.sys.log = .ok s.gt

/-- Lines of poses. -/
def Line (f : Flags) (e : Effect G) : Prop := ∃ p ∈ posePaths f, ∃ items, e = .app p items

theorem onEvent_lines [Group G] {f : Flags} {wd : World G} {s : St G} {e : Event G} : ∀ x ∈ (onEvent f wd s e).1, Line f x := by
  have h1 : ∀ (w w' : Writer G), ∀ x ∈ writerEffects f w w' e, Line f x := by
    intro w w' x hx
    cases e <;> simp only [writerEffects, List.mem_cons, List.not_mem_nil, or_false] at hx
    all_goals
      rcases hx with rfl | rfl
      · exact ⟨f.trackedPos, by simp [posePaths], _, rfl⟩
      · exact ⟨f.trackedMatrix, by simp [posePaths], _, rfl⟩
  have h2 : ∀ (w w' : WriterGT G), ∀ x ∈ writerGTEffects f w w' e, Line f x := by
    intro w w' x hx
    cases e <;> simp only [writerGTEffects, List.mem_cons, List.not_mem_nil, or_false] at hx
    all_goals
      rcases hx with rfl | rfl
      · exact ⟨f.gtPos, by simp [posePaths], _, rfl⟩
      · exact ⟨f.gtMatrix, by simp [posePaths], _, rfl⟩
  intro x hx
  unfold onEvent at hx
  dsimp only at hx
  split at hx
  · exact h1 _ _ x hx
  · rcases List.mem_append.1 hx with h | h
    · exact h1 _ _ x h
    · exact h2 _ _ x h

theorem mem_andThen {σ τ : Type} {a : Act G σ} {k : σ → Act G τ} {x : Effect G} (h : x ∈ (andThen a k).1) :
    x ∈ a.1 ∨ ∃ s, a.2 = .ok s ∧ x ∈ (k s).1 := by
  unfold andThen at h
  split at h
  · exact Or.inl h
  · rename_i s hs
    rcases List.mem_append.1 h with h | h
    · exact Or.inl h
    · exact Or.inr ⟨s, hs, h⟩

theorem onEvents_lines [Group G] {f : Flags} {wd : World G} : ∀ (evs : List (Event G)) {s : St G}, ∀ x ∈ (onEvents f wd evs s).1, Line f x
  | [], s, x, hx => by simp [onEvents] at hx
  | e :: evs, s, x, hx => by
    rcases mem_andThen hx with h | ⟨s', -, h⟩
    · exact onEvent_lines x h
    · exact onEvents_lines evs x h

/-- Pictures. -/
def Picture (f : Flags) (e : Effect G) : Prop := ∃ init base it, e ∈ (pictures f init base it : List (Effect G))

theorem round_effects [Group G] {f : Flags} {wd : World G} {s : St G} {it : Int} : ∀ x ∈ (round f wd s it).1, Line f x ∨ Picture f x := by
  intro x hx
  unfold round at hx
  split at hx
  · simp at hx
  · split at hx
    · simp at hx
    · rcases mem_andThen hx with h | ⟨s', -, h⟩
      · exact Or.inl (onEvents_lines _ x h)
      · exact Or.inr ⟨_, _, _, h⟩

theorem rounds_effects [Group G] {f : Flags} {wd : World G} : ∀ (its : List Int) {s : St G},
    ∀ x ∈ (rounds f wd its s).1, Line f x ∨ Picture f x
  | [], s, x, hx => by simp [rounds] at hx
  | it :: its, s, x, hx => by
    rcases mem_andThen hx with h | ⟨s', -, h⟩
    · exact round_effects x h
    · exact rounds_effects its x h

theorem append_ne_of_last {a b : Path} {x y : Name} (h : x ≠ y) : a ++ [x] ≠ b ++ [y] := by
  intro e
  have := congrArg List.getLast? e
  simp at this
  exact h this

theorem mem_pictures {f : Flags} {init base : Bool} {it : Int} {e : Effect G} : e ∈ pictures f init base it ↔ f.writeFiles = true ∧
    ((init = true ∧ e = .put f.interpolationJpg [.interpolation]) ∨ e = .put (f.debugJpg it) [.debugPicture it] ∨
      e = .put (f.trackJpg it) [.trackPicture it] ∨ (f.drawDepthPyramid = true ∧ base = true ∧ e = .put (f.pyrJpg it) [.pyrPicture it])) := by
  unfold pictures
  cases f.writeFiles
  · simp
  · cases init <;> cases base <;> cases f.drawDepthPyramid <;> simp [or_comm, or_left_comm]

/-- A picture is a file of its own, with one of these names. -/
theorem Picture.put {f : Flags} {e : Effect G} (h : Picture f e) :
    ∃ q nm items, e = .put (q ++ [nm]) items ∧ (nm = .str "interpolation.jpg" ∨ ∃ it, nm = frameJpg it) := by
  obtain ⟨i, b, it, h⟩ := h
  rcases (mem_pictures.1 h).2 with ⟨-, rfl⟩ | rfl | rfl | ⟨-, -, rfl⟩
  · exact ⟨_, _, _, rfl, Or.inl rfl⟩
  · exact ⟨_, _, _, rfl, Or.inr ⟨it, rfl⟩⟩
  · exact ⟨_, _, _, rfl, Or.inr ⟨it, rfl⟩⟩
  · exact ⟨_, _, _, rfl, Or.inr ⟨it, rfl⟩⟩

theorem posePaths_last {f : Flags} {p : Path} (h : p ∈ posePaths f) : ∃ nm, p = f.outDir ++ [.str nm] ∧
    (nm = "tracked_pos.txt" ∨ nm = "tracked_frame_to_world.txt" ∨ nm = "ground_truth_pos.txt" ∨ nm = "matrix_form_GT_pose.txt") := by
  simp only [posePaths, List.mem_cons, List.not_mem_nil, or_false] at h
  rcases h with rfl | rfl | rfl | rfl
  · exact ⟨_, rfl, by simp⟩
  · exact ⟨_, rfl, by simp⟩
  · exact ⟨_, rfl, by simp⟩
  · exact ⟨_, rfl, by simp⟩

theorem Picture.not_pose {f : Flags} {e : Effect G} (h : Picture f e) {p : Path} (hp : p ∈ posePaths f) (items : List (Item G)) :
    e ≠ .put p items := by
  obtain ⟨q, nm, it, rfl, hn⟩ := h.put
  obtain ⟨s, rfl, hs⟩ := posePaths_last hp
  intro e
  injection e with e _
  refine append_ne_of_last ?_ e
  rcases hn with rfl | ⟨_, rfl⟩
  · rcases hs with rfl | rfl | rfl | rfl <;> simp
  · simp [frameJpg]

theorem aside_of_pictures {f : Flags} {es : List (Effect G)} (h : ∀ e ∈ es, Picture f e) : Aside f es := by
  intro p hp
  constructor
  · intro e he
    have h1 := (h e he).not_pose hp
    obtain ⟨q, nm, it, rfl, -⟩ := (h e he).put
    exact ⟨h1, by simp, by simp⟩
  · unfold tail
    rw [List.flatMap_eq_nil_iff]
    intro e he
    obtain ⟨q, nm, it, rfl, -⟩ := (h e he).put
    rfl

/-- The pictures of the frames `rest` after the frames `done`. -/
def picsFrom (f : Flags) (set : Settings) : List Int → List Int → List (Effect G)
  | _, [] => []
  | done, it :: its =>
    pictures f (decide ((policyOf set).skip + 2 ≤ done.length + 1)) (makesKeyFrame set done it) it ++ picsFrom f set (done ++ [it]) its

theorem mem_picsFrom {f : Flags} {set : Settings} {e : Effect G} : ∀ (rest done : List Int), e ∈ picsFrom f set done rest ↔
    ∃ pre it post, rest = pre ++ it :: post ∧
      e ∈ pictures f (decide ((policyOf set).skip + 2 ≤ (done ++ pre).length + 1)) (makesKeyFrame set (done ++ pre) it) it
  | [], done => by simp [picsFrom]
  | it :: its, done => by
    rw [picsFrom, List.mem_append, mem_picsFrom its]
    constructor
    · rintro (h | ⟨pre, x, post, rfl, h⟩)
      · exact ⟨[], it, its, rfl, by simpa using h⟩
      · exact ⟨it :: pre, x, post, rfl, by simpa using h⟩
    · rintro ⟨pre, x, post, hr, h⟩
      cases pre with
      | nil =>
        simp only [List.nil_append, List.cons.injEq] at hr
        obtain ⟨rfl, rfl⟩ := hr
        left; simpa using h
      | cons y pre =>
        simp only [List.cons_append, List.cons.injEq] at hr
        obtain ⟨rfl, rfl⟩ := hr
        exact Or.inr ⟨pre, x, post, rfl, by simpa using h⟩

theorem round_ok [Group G] {f : Flags} {wd : World G} (hv : Valid wd.set) {done : List Int} {s : St G} (hi : RInv wd done s) {n : Int}
    (ha : Acceptable done n) (hm : n < intMax) (hg : ∀ m ∈ done ++ [n], m < wd.gt.length) {x : Input G} (hx : wd.input n = some x) :
    ∃ es s' r, round f wd s n = (es ++ pictures f (decide ((policyOf wd.set).skip + 2 ≤ done.length + 1)) (makesKeyFrame wd.set done n) n, .ok s') ∧
      addFrame wd.set s.sys (callOf x n) = .ok (s'.sys, r) ∧ RInv wd (done ++ [n]) s' ∧ Booked f s s' es ∧ ∀ e ∈ es, Line f e := by
  obtain ⟨sys, r, evs, e, hi', hlog, hde, hany⟩ := addFrame_step hv hi.inv (x := callOf x n) ha hm hi.alive
  have hdrop : sys.log.drop s.sys.log.length = evs := by rw [hlog]; simp
  have hcov := covers_log hi' hg hde
  obtain ⟨g, hgt, -⟩ := gsteps_ok (align := wd.align) (gt := wd.gt) sys.log (w := WriterGT.init wd.gt) (nums := [])
    ⟨rfl, rfl, rfl, rfl, by simp [WriterGT.init]⟩ (fun ev hev => hcov ev (List.mem_append_left _ hev))
  have hgt' : evs.foldlM (WriterGT.step wd.align) s.gt = .ok g := by
    rw [hlog, List.foldlM_append] at hgt
    have := hi.gt
    unfold writerGTOf at this
    rw [this] at hgt
    exact hgt
  obtain ⟨es, e1, b1⟩ := onEvents_booked (f := f) (wd := wd) evs (s := { s with sys := sys }) hgt'
  refine ⟨es, { s with sys := sys, w := evs.foldl (Writer.step wd.infInt) s.w, gt := g }, r, ?_, e, ⟨hi', hde, ?_, ?_⟩,
    ⟨b1.pos, b1.matrix, b1.gtPos, b1.gtMatrix, b1.quiet⟩, ?_⟩
  · unfold round
    simp only [hx]
    have e' : addFrame wd.set s.sys ⟨n, x.stereo, x.track, x.ba⟩ = .ok (sys, r) := e
    simp only [e', hdrop, e1, andThen, hany]
    congr 3
    rw [hi'.initd]
    simp
  · show _ = writerOf wd.infInt sys.log
    rw [hlog, writerOf_append, ← hi.w]
  · exact hgt
  · intro ev hev
    have := onEvents_lines (f := f) (wd := wd) evs (s := { s with sys := sys }) ev
    rw [e1] at this
    exact this hev

theorem rounds_ok [Group G] {f : Flags} {wd : World G} (hv : Valid wd.set) : ∀ (rest : List Int) {done : List Int} {s : St G}, RInv wd done s →
    (done ++ rest).Pairwise (· < ·) → (∀ n ∈ rest, 0 < n ∧ n < intMax) → (∀ m ∈ done ++ rest, m < wd.gt.length) →
    (∀ n ∈ rest, (wd.input n).isSome) →
    ∃ es s' rs, rounds f wd rest s = (es, .ok s') ∧ run wd.set s.sys (callsOf wd rest) = .ok (s'.sys, rs) ∧ RInv wd (done ++ rest) s' ∧
      Booked f s s' es ∧ (∀ e ∈ es, Line f e ∨ e ∈ picsFrom f wd.set done rest) ∧ ∀ e ∈ picsFrom f wd.set done rest, e ∈ es := by
  intro rest
  induction rest with
  | nil =>
    intro done s hi _ _ _ _
    exact ⟨[], s, [], rfl, rfl, by simpa using hi, Booked.aside (fun p _ => ⟨fun x hx => by simp at hx, rfl⟩) rfl rfl, by simp, by simp [picsFrom]⟩
  | cons n rest ih =>
    intro done s hi hp hb hg hr
    have hacc : Acceptable done n := ⟨(hb n (by simp)).1, fun m hm => (List.pairwise_append.1 hp).2.2 m hm n (by simp)⟩
    obtain ⟨x, hx⟩ := Option.isSome_iff_exists.1 (hr n (by simp))
    have hcat : done ++ [n] ++ rest = done ++ n :: rest := by simp
    obtain ⟨es1, s1, r, e1, a1, hi1, b1, l1⟩ := round_ok (f := f) hv hi hacc (hb n (by simp)).2
      (fun m hm => hg m (by rcases List.mem_append.1 hm with h | h <;> simp at h ⊢ <;> tauto)) hx
    obtain ⟨es2, s2, rs, e2, a2, hi2, b2, l2, p2⟩ := ih hi1 (by rw [hcat]; exact hp) (fun m hm => hb m (by simp [hm]))
      (by rw [hcat]; exact hg) (fun m hm => hr m (by simp [hm]))
    have hpics : ∀ e ∈ (pictures f (decide ((policyOf wd.set).skip + 2 ≤ done.length + 1)) (makesKeyFrame wd.set done n) n : List (Effect G)),
        Picture f e := fun e he => ⟨_, _, _, he⟩
    refine ⟨es1 ++ pictures f (decide ((policyOf wd.set).skip + 2 ≤ done.length + 1)) (makesKeyFrame wd.set done n) n ++ es2, s2, r :: rs,
      ?_, ?_, by rw [← hcat]; exact hi2, ?_, ?_, ?_⟩
    · simp only [rounds, e1, andThen, e2]
    · have : callsOf wd (n :: rest) = callOf x n :: callsOf wd rest := by simp [callsOf, hx]
      rw [this, run, a1]
      simp only [a2]
    · exact (b1.trans (Booked.aside (aside_of_pictures hpics) rfl rfl)).trans b2
    · intro e he
      rcases List.mem_append.1 he with he | he
      · rcases List.mem_append.1 he with he | he
        · exact Or.inl (l1 e he)
        · exact Or.inr (List.mem_append_left _ he)
      · rcases l2 e he with h | h
        · exact Or.inl h
        · exact Or.inr (List.mem_append_right _ h)
    · intro e he
      rcases List.mem_append.1 he with he | he
      · exact List.mem_append_left _ (List.mem_append_right _ he)
      · exact List.mem_append_right _ (p2 e he)

theorem rounds_append [Group G] {f : Flags} {wd : World G} : ∀ (a b : List Int) (s : St G),
    rounds f wd (a ++ b) s = andThen (rounds f wd a s) (rounds f wd b)
  | [], b, s => by simp [rounds, andThen]
  | n :: a, b, s => by
    have h : ∀ s', rounds f wd (a ++ b) s' = andThen (rounds f wd a s') (rounds f wd b) := rounds_append a b
    simp only [List.cons_append, rounds]
    unfold andThen
    cases h1 : (round f wd s n).2 with
    | error e => simp
    | ok s1 =>
      simp only [h s1]
      unfold andThen
      cases h2 : (rounds f wd a s1).2 with
      | error e => simp
      | ok s2 => simp

/-! ## The whole run -/

theorem frameNums_sorted (f : Flags) : (frameNums f).Pairwise (· < ·) := by
  unfold frameNums
  rw [List.pairwise_map]
  exact List.pairwise_lt_range.imp (fun h => by omega)

theorem frameNums_range {f : Flags} {n : Int} (h : n ∈ frameNums f) : f.start ≤ n ∧ n < f.start + f.count := by
  unfold frameNums at h
  obtain ⟨i, hi, rfl⟩ := List.mem_map.1 h
  have := List.mem_range.1 hi
  omega

theorem frameNums_eq (f : Flags) : frameNums f = framesFrom f.start f.count := rfl

theorem framesFrom_append (a c : Int) {i : Nat} (h : i < c.toNat) : framesFrom a c = framesFrom a i ++ (a + i) :: framesFrom (a + i + 1) (c - i - 1) := by
  unfold framesFrom
  apply List.ext_getElem
  · simp; omega
  · intro k h1 h2
    simp only [List.length_map, List.length_range] at h1
    rcases Nat.lt_trichotomy k i with hk | hk | hk
    · rw [List.getElem_append_left (by simpa using hk)]; simp
    · subst hk; rw [List.getElem_append_right (by simp)]; simp
    · rw [List.getElem_append_right (by simp; omega)]
      simp only [List.length_map, List.length_range, Int.toNat_natCast]
      obtain ⟨m, rfl⟩ : ∃ m, k = i + 1 + m := ⟨k - i - 1, by omega⟩
      have e : i + 1 + m - i = m + 1 := by omega
      simp only [e, List.getElem_cons_succ, List.getElem_map, List.getElem_range]
      push_cast
      omega

theorem framesFrom_pre {a c n : Int} {pre post : List Int} (h : framesFrom a c = pre ++ n :: post) :
    a ≤ n ∧ n < a + c ∧ pre = framesFrom a (n - a) := by
  have hl := congrArg List.length h
  simp [framesFrom] at hl
  have hi : pre.length < c.toNat := by omega
  have h' := framesFrom_append a c hi
  rw [h] at h'
  have h2 := List.append_inj h' (by simp [framesFrom])
  have h3 := (List.cons.inj h2.2).1
  refine ⟨by omega, by omega, ?_⟩
  rw [h3]
  have : a + (pre.length : Int) - a = (pre.length : Int) := by omega
  rw [this]; exact h2.1

theorem rinv_create [Group G] {wd : World G} {s0 : State G} (hc : create wd.set = .ok s0) : RInv wd [] ⟨s0, Writer.init, WriterGT.init wd.gt⟩ := by
  have hlog : s0.log = [] := by unfold create at hc; split at hc <;> cases hc; rfl
  exact ⟨inv_create hc, by simp [hlog, destructedOf], by simp [hlog, writerOf], by simp [hlog, writerGTOf]; rfl⟩

theorem Ready.truth' [Group G] {f : Flags} {wd : World G} (h : Ready f wd) : ∀ n ∈ frameNums f, n < wd.gt.length :=
  fun n hn => h.truth n (frameNums_range hn).1 (frameNums_range hn).2

theorem Ready.readable' [Group G] {f : Flags} {wd : World G} (h : Ready f wd) : ∀ n ∈ frameNums f, (wd.input n).isSome :=
  fun n hn => h.readable n (frameNums_range hn).1 (frameNums_range hn).2

/-- A file of a snapshot, or a directory for it. -/
theorem mem_snapshotEffects {f : Flags} {kfs : List (KeyFrame G)} {e : Effect G} (h : e ∈ snapshotEffects f kfs) :
    (∃ q, e = .mkdirs q ∧ f.snapshot <+: q) ∨ ∃ q nm items, e = .put (q ++ [nm]) items ∧ f.snapshot <+: q ∧
      (nm = .str "kf.txt" ∨ nm = .str "depth_col.txt" ∨ ∃ n, nm = .numbered "pkf" n ".txt") := by
  unfold snapshotEffects at h
  simp only [List.cons_append, List.nil_append, List.mem_cons, List.mem_append, List.mem_flatMap, List.not_mem_nil, or_false, List.mem_map] at h
  rcases h with rfl | ⟨kf, -, rfl | rfl | ⟨t, -, rfl⟩⟩ | rfl
  · exact Or.inl ⟨_, rfl, List.prefix_refl _⟩
  · exact Or.inl ⟨_, rfl, List.prefix_append _ _⟩
  · exact Or.inr ⟨_, _, _, rfl, List.prefix_append _ _, Or.inl rfl⟩
  · exact Or.inr ⟨_, _, _, rfl, List.prefix_refl _, Or.inr (Or.inr ⟨_, rfl⟩)⟩
  · exact Or.inr ⟨_, _, _, rfl, List.prefix_refl _, Or.inr (Or.inl rfl)⟩

theorem snapshot_aside (f : Flags) (kfs : List (KeyFrame G)) : Aside f (snapshotEffects f kfs) := by
  intro p hp
  obtain ⟨s, rfl, hs⟩ := posePaths_last hp
  constructor
  · intro e he
    rcases mem_snapshotEffects he with ⟨q, rfl, -⟩ | ⟨q, nm, items, rfl, -, hn⟩
    · simp
    · refine ⟨fun it h => ?_, by simp, by simp⟩
      injection h with h _
      refine append_ne_of_last ?_ h
      rcases hn with rfl | rfl | ⟨n, rfl⟩
      · rcases hs with rfl | rfl | rfl | rfl <;> simp
      · rcases hs with rfl | rfl | rfl | rfl <;> simp
      · simp
  · unfold tail
    rw [List.flatMap_eq_nil_iff]
    intro e he
    rcases mem_snapshotEffects he with ⟨q, rfl, -⟩ | ⟨q, nm, items, rfl, -, hn⟩ <;> rfl

theorem argsTxt_not_pose (f : Flags) : f.argsTxt ∉ posePaths f := by
  simp [posePaths, Flags.argsTxt, Flags.trackedPos, Flags.trackedMatrix, Flags.gtPos, Flags.gtMatrix]

theorem closed_aside (f : Flags) (items : List (Item G)) : Aside f [.closed f.argsTxt items] := by
  intro p hp
  have hne : f.argsTxt ≠ p := fun h => argsTxt_not_pose f (h ▸ hp)
  refine ⟨fun e he => ?_, rfl⟩
  simp only [List.mem_singleton] at he
  subst he
  refine ⟨by simp, by simp, fun it h => ?_⟩
  injection h with h _
  exact hne h

/-- A run that gets to its end, part by part. -/
theorem main_ok [Group G] {f : Flags} {wd : World G} (h : Ready f wd) {s0 : State G} (hc : create wd.set = .ok s0) :
    ∃ es esd st st' rs, main f wd = (prepare f ++ (es ++ (snapshotEffects f st.sys.keyFrames ++ (esd ++ [.closed f.argsTxt (f.args.map .arg)]))), .ok st') ∧
      run wd.set s0 (callsOf wd (frameNums f)) = .ok (st.sys, rs) ∧ RInv wd (frameNums f) st ∧
      Booked f ⟨s0, Writer.init, WriterGT.init wd.gt⟩ st es ∧ Booked f st st' esd ∧ (∀ e ∈ esd, Line f e) ∧
      (∀ e ∈ es, Line f e ∨ e ∈ picsFrom f wd.set [] (frameNums f)) ∧ (∀ e ∈ picsFrom f wd.set [] (frameNums f), e ∈ es) ∧
      st'.w = writerOf wd.infInt (destroy st.sys) ∧ writerGTOf wd.align wd.gt (destroy st.sys) = .ok st'.gt := by
  obtain ⟨es, st, rs, e1, hr, hi, hb, hm1, hm2⟩ := rounds_ok (f := f) h.valid (frameNums f) (rinv_create hc) (by simpa using frameNums_sorted f)
    (fun n hn => by have := frameNums_range hn; have := h.start; have := h.range; omega) (by simpa using h.truth') h.readable'
  simp only [List.nil_append] at hi
  have hcov := covers_log hi.inv h.truth' hi.alive
  obtain ⟨g, hgt, -⟩ := gsteps_ok (align := wd.align) (gt := wd.gt) (destroy st.sys) (w := WriterGT.init wd.gt) (nums := [])
    ⟨rfl, rfl, rfl, rfl, by simp [WriterGT.init]⟩ (fun ev hev => hcov ev hev)
  have hgt' : st.gt.step wd.align (.destructed st.sys.keyFrames) = .ok g := by
    unfold destroy at hgt
    rw [List.foldlM_append] at hgt
    have := hi.gt
    unfold writerGTOf at this
    rw [this] at hgt
    have h' : List.foldlM (WriterGT.step wd.align) st.gt [.destructed st.sys.keyFrames] = .ok g := hgt
    rw [List.foldlM_cons] at h'
    cases h2 : st.gt.step wd.align (.destructed st.sys.keyFrames) with
    | error e => rw [h2] at h'; cases h'
    | ok g' => rw [h2] at h'; cases h'; rfl
  obtain ⟨esd, e2, b2⟩ := onEvent_booked (f := f) (wd := wd) (s := st) hgt'
  refine ⟨es, esd, st, _, rs, ?_, hr, hi, hb, b2, ?_, hm1, hm2, ?_, hgt⟩
  · unfold main
    rw [hc]
    simp only [andThen, Except.mapError]
    rw [if_neg (by have := h.range; omega)]
    simp only [e1, andThen, finish, e2]
  · intro e he
    have := onEvent_lines (f := f) (wd := wd) (s := st) (e := .destructed st.sys.keyFrames) e
    rw [e2] at this
    exact this he
  · show _ = writerOf wd.infInt (destroy st.sys)
    unfold destroy
    rw [writerOf_append, ← hi.w]
    rfl

theorem prepare_isDir {f : Flags} (d : Disk G) {p : Path} (h : f.writeFiles = true ∨ d.isDir f.outDir) (hp : p.dropLast = f.outDir) :
    (d.execAll (prepare f)).isDir p.dropLast := by
  rw [hp]
  rcases h with h | h
  · unfold prepare
    rw [if_pos h]
    show (Disk.execAll (d.exec (.mkdirs f.outDir)) _).isDir _
    exact execAll_isDir _ (mkdirs_isDir d _ (List.prefix_refl _))
  · exact execAll_isDir _ h

/-- Effects that do not write this file leave it as it is. -/
def Untouched (p : Path) (es : List (Effect G)) : Prop :=
  ∀ e ∈ es, (∀ items, e ≠ .put p items) ∧ (∀ items, e ≠ .app p items) ∧ e ≠ .opened p ∧ ∀ items, e ≠ .closed p items

theorem exec_untouched {p : Path} : ∀ (es : List (Effect G)) {d : Disk G}, Untouched p es → (d.execAll es).files p = d.files p := by
  intro es
  induction es with
  | nil => intro d _; rfl
  | cons e es ih =>
    intro d hq
    have h1 := ih (d := d.exec e) (fun x hx => hq x (List.mem_cons_of_mem _ hx))
    refine Eq.trans h1 ?_
    obtain ⟨n0, n1, n2, n3⟩ := hq e (by simp)
    cases e with
    | mkdirs q => rfl
    | put q items =>
      have hne : p ≠ q := fun h => n0 items (by rw [h])
      unfold Disk.exec; dsimp only; split
      · exact Function.update_of_ne hne _ _
      · rfl
    | app q items =>
      have hne : p ≠ q := fun h => n1 items (by rw [h])
      unfold Disk.exec; dsimp only; split
      · exact Function.update_of_ne hne _ _
      · rfl
    | opened q =>
      have hne : p ≠ q := fun h => n2 (by rw [h])
      unfold Disk.exec; dsimp only; split
      · exact Function.update_of_ne hne _ _
      · rfl
    | closed q items =>
      have hne : p ≠ q := fun h => n3 items (by rw [h])
      unfold Disk.exec; dsimp only; split
      · exact Function.update_of_ne hne _ _
      · rfl

theorem Untouched.append {p : Path} {a b : List (Effect G)} (ha : Untouched p a) (hb : Untouched p b) : Untouched p (a ++ b) := by
  intro e he
  rcases List.mem_append.1 he with h | h
  · exact ha e h
  · exact hb e h

theorem mem_prepare {f : Flags} {e : Effect G} (h : e ∈ prepare f) : (∃ q, e = .mkdirs q ∧ f.writeFiles = true) ∨ e = .opened f.argsTxt := by
  unfold prepare at h
  by_cases hw : f.writeFiles = true
  · rw [if_pos hw] at h
    simp only [List.mem_append, List.mem_cons, List.not_mem_nil, or_false] at h
    rcases h with (rfl | rfl | rfl | rfl) | rfl
    · exact Or.inl ⟨_, rfl, hw⟩
    · exact Or.inl ⟨_, rfl, hw⟩
    · exact Or.inl ⟨_, rfl, hw⟩
    · exact Or.inl ⟨_, rfl, hw⟩
    · exact Or.inr rfl
  · rw [if_neg hw] at h
    simp only [List.nil_append, List.mem_singleton] at h
    exact Or.inr h

theorem prepare_untouched {f : Flags} {p : Path} (hp : p ≠ f.argsTxt) : Untouched p (prepare f : List (Effect G)) := by
  intro e he
  rcases mem_prepare he with ⟨q, rfl, -⟩ | rfl
  · simp
  · refine ⟨by simp, by simp, fun h => ?_, by simp⟩
    injection h with h
    exact hp h.symm

theorem posePath_dropLast {f : Flags} {p : Path} (hp : p ∈ posePaths f) : p.dropLast = f.outDir ∧ p ≠ f.argsTxt := by
  obtain ⟨s, rfl, hs⟩ := posePaths_last hp
  refine ⟨by simp, ?_⟩
  unfold Flags.argsTxt
  refine append_ne_of_last ?_
  rcases hs with rfl | rfl | rfl | rfl <;> simp

/-- The files of poses after effects that follow the preparation. -/
theorem posefile_content {f : Flags} {d : Disk G} (hd : f.writeFiles = true ∨ d.isDir f.outDir) {p : Path} (hp : p ∈ posePaths f)
    {es : List (Effect G)} (hq : Quiet p es) : content (d.execAll (prepare f ++ es)) p = content d p ++ tail p es := by
  obtain ⟨h1, h2⟩ := posePath_dropLast hp
  rw [execAll_append, exec_content es hq (prepare_isDir d hd h1)]
  congr 1
  unfold content
  rw [exec_untouched _ (prepare_untouched h2)]

theorem lastPut_const {p : Path} {v : List (Item G)} : ∀ (es : List (Effect G)) (old : Option (List (Item G))),
    (∀ items, .put p items ∈ es → items = v) → (.put p v ∈ es → lastPut p es old = some v) ∧ (.put p v ∉ es → lastPut p es old = old) := by
  intro es
  induction es with
  | nil => intro old _; exact ⟨fun h => by simp at h, fun _ => rfl⟩
  | cons e es ih =>
    intro old h
    have h' : ∀ items, .put p items ∈ es → items = v := fun items hi => h items (List.mem_cons_of_mem _ hi)
    have other : (∀ items, e ≠ .put p items) → lastPut p (e :: es) old = lastPut p es old := by
      intro hn
      cases e with
      | put q items =>
        have : q ≠ p := fun hq => hn items (by rw [hq])
        show lastPut p es (if q = p then _ else _) = _
        rw [if_neg this]
      | _ => rfl
    by_cases he : ∃ items, e = .put p items
    · obtain ⟨items, rfl⟩ := he
      obtain rfl := h items (by simp)
      have h2 : lastPut p (.put p items :: es) old = lastPut p es (some items) := by
        show lastPut p es (if p = p then _ else _) = _
        rw [if_pos rfl]
      refine ⟨fun _ => ?_, fun hn => absurd (by simp) hn⟩
      rw [h2]
      by_cases hm : .put p items ∈ es
      · exact (ih _ h').1 hm
      · exact (ih _ h').2 hm
    · have hn : ∀ items, e ≠ .put p items := fun items hh => he ⟨items, hh⟩
      rw [other hn]
      refine ⟨fun hm => (ih _ h').1 ?_, fun hm => (ih _ h').2 fun hh => hm (List.mem_cons_of_mem _ hh)⟩
      rcases List.mem_cons.1 hm with hm | hm
      · exact absurd hm.symm (hn v)
      · exact hm

/-! ## Any run -/

theorem onEvent_ok_lines [Group G] {f : Flags} {wd : World G} {s s' : St G} {e : Event G} {es : List (Effect G)}
    (h : onEvent f wd s e = (es, .ok s')) : ∀ x ∈ es, Line f x := by
  intro x hx
  have := onEvent_lines (f := f) (wd := wd) (s := s) (e := e) x
  rw [h] at this
  exact this hx

/-- The parts of a run: after the preparation poses and pictures, then, if no fault has ended it before, a snapshot, poses, and the end of `args.txt`. -/
theorem main_shape [Group G] (f : Flags) (wd : World G) :
    (∃ es er, main f wd = (prepare f ++ es, .error er) ∧ ∀ e ∈ es, Line f e ∨ Picture f e ∨ ∃ kfs, e ∈ snapshotEffects f kfs) ∨
    ∃ a kfs b st, main f wd = (prepare f ++ (a ++ (snapshotEffects f kfs ++ (b ++ [.closed f.argsTxt (f.args.map .arg)]))), .ok st) ∧
      (∀ e ∈ a, Line f e ∨ Picture f e) ∧ ∀ e ∈ b, Line f e := by
  unfold main
  cases hc : create (G := G) wd.set with
  | error e => left; exact ⟨[], ofErr e, by simp [andThen, Except.mapError], by simp⟩
  | ok s0 =>
    by_cases hr : f.start + f.count > intMax
    · left
      refine ⟨[], .ub, ?_, by simp⟩
      simp only [andThen, Except.mapError, if_pos hr]
    · simp only [andThen, Except.mapError, if_neg hr]
      have h1 := rounds_effects (f := f) (wd := wd) (frameNums f) (s := ⟨s0, Writer.init, WriterGT.init wd.gt⟩)
      cases h2 : rounds f wd (frameNums f) ⟨s0, Writer.init, WriterGT.init wd.gt⟩ with
      | mk a r =>
        rw [h2] at h1
        cases r with
        | error er =>
          left
          refine ⟨a, er, rfl, fun e he => ?_⟩
          rcases h1 e he with h | h
          · exact Or.inl h
          · exact Or.inr (Or.inl h)
        | ok s =>
          simp only [finish, andThen]
          have h3 := onEvent_lines (f := f) (wd := wd) (s := s) (e := .destructed s.sys.keyFrames)
          cases h4 : onEvent f wd s (.destructed s.sys.keyFrames) with
          | mk b r =>
            rw [h4] at h3
            cases r with
            | error er =>
              left
              refine ⟨a ++ (snapshotEffects f s.sys.keyFrames ++ b), er, rfl, fun e he => ?_⟩
              rcases List.mem_append.1 he with h | h
              · rcases h1 e h with h | h
                · exact Or.inl h
                · exact Or.inr (Or.inl h)
              · rcases List.mem_append.1 h with h | h
                · exact Or.inr (Or.inr ⟨_, h⟩)
                · exact Or.inl (h3 e h)
            | ok st => exact Or.inr ⟨a, _, b, st, rfl, h1, h3⟩

theorem Line.ne {f : Flags} {e : Effect G} (h : Line f e) {p : Path} (hp : p ∉ posePaths f) :
    (∀ items, e ≠ .put p items) ∧ (∀ items, e ≠ .app p items) ∧ e ≠ .opened p ∧ ∀ items, e ≠ .closed p items := by
  obtain ⟨q, hq, items, rfl⟩ := h
  refine ⟨by simp, fun it h => ?_, by simp, by simp⟩
  injection h with h _
  exact hp (h ▸ hq)

theorem Picture.ne {f : Flags} {e : Effect G} (h : Picture f e) {p : Path} {nm : Name} (hn : nm ≠ .str "interpolation.jpg")
    (hn' : ∀ it, nm ≠ frameJpg it) :
    (∀ items, e ≠ .put (p ++ [nm]) items) ∧ (∀ items, e ≠ .app (p ++ [nm]) items) ∧ e ≠ .opened (p ++ [nm]) ∧ ∀ items, e ≠ .closed (p ++ [nm]) items := by
  obtain ⟨q, nm', it, rfl, hm⟩ := h.put
  refine ⟨fun items h => ?_, by simp, by simp, by simp⟩
  injection h with h _
  refine append_ne_of_last ?_ h
  rcases hm with rfl | ⟨n, rfl⟩
  · exact hn.symm
  · exact (hn' n).symm

theorem snapshot_ne {f : Flags} {kfs : List (KeyFrame G)} {e : Effect G} (h : e ∈ snapshotEffects f kfs) {p : Path} (hp : ¬ f.snapshot <+: p) :
    (∀ items, e ≠ .put p items) ∧ (∀ items, e ≠ .app p items) ∧ e ≠ .opened p ∧ ∀ items, e ≠ .closed p items := by
  rcases mem_snapshotEffects h with ⟨q, rfl, -⟩ | ⟨q, nm, it, rfl, hq, -⟩
  · simp
  · refine ⟨fun items h => ?_, by simp, by simp, by simp⟩
    injection h with h _
    exact hp (h ▸ hq.trans (List.prefix_append _ _))

theorem snapshot_not_prefix (f : Flags) {nm : Name} (h : nm ≠ .str "snapshot") : ¬ f.snapshot <+: f.outDir ++ [nm] := by
  intro hp
  have := hp.eq_of_length (by simp [Flags.snapshot])
  unfold Flags.snapshot at this
  exact append_ne_of_last (Ne.symm h) this

/-- `args.txt` is not touched between its opening and its closing. -/
theorem args_untouched {f : Flags} {es : List (Effect G)} (h : ∀ e ∈ es, Line f e ∨ Picture f e ∨ ∃ kfs, e ∈ snapshotEffects f kfs) :
    Untouched f.argsTxt es := by
  intro e he
  rcases h e he with h | h | ⟨kfs, h⟩
  · exact h.ne (argsTxt_not_pose f)
  · exact h.ne (by simp) (by simp [frameJpg])
  · exact snapshot_ne h (snapshot_not_prefix f (by simp))

theorem handles_mem {p : Path} : ∀ (es : List (Effect G)) {d : Disk G}, Untouched p es → p ∈ d.handles → p ∈ (d.execAll es).handles := by
  intro es
  induction es with
  | nil => intro d _ h; exact h
  | cons e es ih =>
    intro d hq h
    refine ih (d := d.exec e) (fun x hx => hq x (List.mem_cons_of_mem _ hx)) ?_
    obtain ⟨-, -, -, n3⟩ := hq e (by simp)
    cases e with
    | mkdirs q => exact h
    | put q items => unfold Disk.exec; dsimp only; split <;> exact h
    | app q items => unfold Disk.exec; dsimp only; split <;> exact h
    | opened q =>
      unfold Disk.exec; dsimp only; split
      · exact List.mem_cons_of_mem _ h
      · exact h
    | closed q items =>
      have hne : p ≠ q := fun h => n3 items (by rw [h])
      unfold Disk.exec; dsimp only; split
      · exact (List.mem_erase_of_ne hne).2 h
      · exact h

/-- After the preparation `args.txt` is open and empty. -/
theorem prepare_args {f : Flags} (d : Disk G) (h : f.writeFiles = true ∨ d.isDir f.outDir) :
    (d.execAll (prepare f)).files f.argsTxt = some [] ∧ f.argsTxt ∈ (d.execAll (prepare f)).handles := by
  unfold prepare
  rw [execAll_append]
  obtain ⟨d1, hd1⟩ : ∃ d1, d1 = d.execAll (if f.writeFiles then [.mkdirs f.outDir, .mkdirs (f.outDir ++ f.debugDir),
    .mkdirs (f.outDir ++ f.trackDir), .mkdirs (f.outDir ++ f.pyrDir)] else []) := ⟨_, rfl⟩
  rw [← hd1]
  have h2 : d1.isDir f.argsTxt.dropLast := by
    have : f.argsTxt.dropLast = f.outDir := by simp [Flags.argsTxt]
    rw [this, hd1]
    rcases h with h | h
    · rw [if_pos h]
      show (Disk.execAll (d.exec (.mkdirs f.outDir)) _).isDir _
      exact execAll_isDir _ (mkdirs_isDir d _ (List.prefix_refl _))
    · exact execAll_isDir _ h
  show (d1.exec (.opened f.argsTxt)).files f.argsTxt = _ ∧ _ ∈ (d1.exec (.opened f.argsTxt)).handles
  unfold Disk.exec
  dsimp only
  rw [if_pos h2]
  simp

end Mdso.GenPlyRun
