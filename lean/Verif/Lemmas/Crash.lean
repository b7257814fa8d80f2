import Verif.Model.Crash
import Verif.Lemmas.Snapshot

/-!
# Lemmas about saving a snapshot operation by operation
-/

set_option autoImplicit false

namespace Mdso.Snap

open Mdso.SnapSpec

variable {α β : Type}

/-! ## Reading a file that was cut -/

/-- What a reader does on the beginning of a file decides what it does on the file, unless it met the end. -/
def Local (get : Read α) : Prop :=
  ∀ ts u, (∀ a r, get ts = .ok (a, r) → get (ts ++ u) = .ok (a, r ++ u)) ∧
    ∀ e, get ts = .error e → e = .exception ∨ get (ts ++ u) = .error e

theorem Local.pure (a : α) : Local (pure a : Read α) := by
  intro ts u
  refine ⟨fun b r h => ?_, fun e h => ?_⟩
  · rw [pure_ok] at h ⊢
    cases h; rfl
  · rw [pure_ok] at h; cases h

theorem bind_error {m : Read α} {f : α → Read β} {ts : List Tok} {e : Fault} (h : m ts = .error e) :
    (m >>= f) ts = .error e := by
  change (StateT.bind m f) ts = _
  unfold StateT.bind
  rw [h]; rfl

theorem Local.bind {m : Read α} {f : α → Read β} (hm : Local m) (hf : ∀ a, Local (f a)) : Local (m >>= f) := by
  intro ts u
  cases h : m ts with
  | error e =>
    rw [bind_error h]
    refine ⟨fun _ _ h' => (by cases h'), fun e' h' => ?_⟩
    cases h'
    rcases (hm ts u).2 e h with h' | h'
    · exact .inl h'
    · exact .inr (bind_error h')
  | ok x =>
    obtain ⟨a, r⟩ := x
    rw [bind_ok h, bind_ok ((hm ts u).1 a r h)]
    exact hf a r u

theorem Local.lift (x : Except Fault α) : Local (StateT.lift x : Read α) := by
  intro ts u
  cases x with
  | error e => exact ⟨fun _ _ h => (by cases h), fun e' h => .inr (by cases h; rfl)⟩
  | ok a => exact ⟨fun b r h => (by rw [lift_ok rfl] at h ⊢; cases h; rfl), fun e' h => by cases h⟩

theorem local_getDbl : Local getDbl := by
  intro ts u
  cases ts with
  | nil => exact ⟨fun _ _ h => (by cases h), fun e h => by cases h; exact .inl rfl⟩
  | cons t ts => cases t <;> exact ⟨fun _ _ h => (by cases h; rfl), fun e h => by cases h⟩

theorem local_getInt : Local getInt := by
  intro ts u
  cases ts with
  | nil => exact ⟨fun _ _ h => (by cases h), fun e h => by cases h; exact .inl rfl⟩
  | cons t ts =>
    cases t
    · exact ⟨fun _ _ h => (by cases h), fun e h => by cases h; exact .inl rfl⟩
    · exact ⟨fun _ _ h => (by cases h; rfl), fun e h => by cases h⟩

theorem local_getReal : Local getReal := by
  intro ts u
  cases ts with
  | nil => exact ⟨fun _ _ h => (by cases h), fun e h => by cases h; exact .inl rfl⟩
  | cons t ts =>
    cases t with
    | num x =>
      cases x
      all_goals first
        | exact ⟨fun _ _ h => (by cases h; rfl), fun e h => by cases h⟩
        | exact ⟨fun _ _ h => (by cases h), fun e h => by cases h; exact .inl rfl⟩
    | int n => exact ⟨fun _ _ h => (by cases h; rfl), fun e h => by cases h⟩

theorem local_getMotion : Local getMotion := by
  unfold getMotion getRot
  refine Local.bind (Local.bind local_getReal fun _ => Local.bind local_getReal fun _ =>
    Local.bind local_getReal fun _ => Local.bind local_getReal fun _ => Local.lift _) fun _ => ?_
  exact Local.bind local_getReal fun _ => Local.bind local_getReal fun _ => Local.bind local_getReal fun _ =>
    Local.pure _

theorem local_getLight : Local getLight := by
  unfold getLight
  exact Local.bind local_getDbl fun _ => Local.bind local_getDbl fun _ => Local.pure _

theorem local_getEach {get : Read α} (h : Local get) : ∀ n, Local (getEach get n)
  | 0 => Local.pure _
  | n + 1 => by
    unfold getEach
    exact Local.bind (local_getEach h n) fun _ => Local.bind h fun _ => Local.pure _

theorem local_getPoints {get : Read α} (h : Local get) (n : Int) : Local (getPoints get n) := by
  unfold getPoints
  by_cases hn : n < 0
  · rw [if_pos hn]; exact Local.lift _
  · rw [if_neg hn]; exact local_getEach h _

theorem local_getOwnData : Local getOwnData := by
  unfold getOwnData
  exact Local.bind local_getInt fun _ => Local.bind local_getInt fun _ => Local.bind local_getInt fun _ =>
    Local.bind local_getMotion fun _ => Local.bind local_getLight fun _ => Local.bind local_getInt fun _ =>
    Local.bind (local_getPoints local_getInt _) fun _ => Local.pure _

theorem local_getPreKeyFrame : Local getPreKeyFrame := by
  unfold getPreKeyFrame
  exact Local.bind local_getMotion fun _ => Local.bind local_getInt fun _ =>
    Local.bind local_getLight fun _ => Local.pure _

/-- A file that is read to its end cannot be read when its end is missing. -/
theorem Local.cut {get : Read α} (h : Local get) {ts u : List Tok} {a : α} (hu : u ≠ [])
    (hr : get (ts ++ u) = .ok (a, [])) : get ts = .error .exception := by
  cases hg : get ts with
  | ok x =>
    obtain ⟨b, r⟩ := x
    have := (h ts u).1 b r hg
    rw [hr] at this
    cases u with
    | nil => exact absurd rfl hu
    | cons t u => simp at this
  | error e =>
    rcases (h ts u).2 e hg with rfl | h'
    · rfl
    · rw [hr] at h'; cases h'

/-- A beginning of a file that can be read is read, or its end is met. -/
theorem Local.prefix {get : Read α} (h : Local get) {ts u : List Tok} {x : α × List Tok}
    (hr : get (ts ++ u) = .ok x) : (∃ y, get ts = .ok y) ∨ get ts = .error .exception := by
  cases hg : get ts with
  | ok y => exact .inl ⟨y, rfl⟩
  | error e =>
    rcases (h ts u).2 e hg with rfl | h'
    · exact .inr rfl
    · rw [hr] at h'; cases h'

/-- The tokens of `kf.txt`. -/
def ownToks (kf : KeyFrame) : List Tok :=
  [.int kf.immaturePoints.length, .int kf.optimizedPoints.length, .int kf.preKeyFrame.globalFrameNum] ++
    putMotion kf.thisToWorld ++ putLight kf.lightWorldToThis ++ [.int kf.trackedFrames.length] ++
    kf.trackedFrames.map (fun f => .int f.globalFrameNum)

theorem getOwnData_toks (kf : KeyFrame) : ∃ a, getOwnData (ownToks kf) = .ok (a, []) := by
  refine ⟨(kf.immaturePoints.length, kf.optimizedPoints.length, kf.preKeyFrame.globalFrameNum,
        kf.thisToWorld, kf.lightWorldToThis, kf.trackedFrames.map (·.globalFrameNum)), ?_⟩
  unfold getOwnData ownToks
  simp only [List.append_assoc, List.cons_append, List.nil_append]
  rw [bind_ok (getInt_ok _ _), bind_ok (getInt_ok _ _), bind_ok (getInt_ok _ _),
    bind_ok (getMotion_ok _ _), bind_ok (getLight_ok _ _), bind_ok (getInt_ok _ _)]
  have := getEach_nums [] kf.trackedFrames
  rw [List.append_nil] at this
  rw [← getPoints_nat] at this
  rw [bind_ok this, pure_ok]

/-! ## Running operations -/

theorem run_nil (w : World) : run w [] = w := rfl
theorem run_cons (w : World) (o : Op) (os : List Op) : run w (o :: os) = run (step w o) os := rfl
theorem run_append (w : World) (a b : List Op) : run w (a ++ b) = run (run w a) b := List.foldl_append

/-- The operation opens or closes the file. -/
def Op.turns (f : File) : Op → Prop
  | .open g => g = f
  | .close g => g = f
  | _ => False

/-- The operation concerns the file. -/
def Op.touches (f : File) : Op → Prop
  | .open g => g = f
  | .put g _ => g = f
  | .close g => g = f
  | .mkdir _ => False

def putsTo (f : File) : List Op → List Tok
  | [] => []
  | .put g ts :: os => (if g = f then ts else []) ++ putsTo f os
  | _ :: os => putsTo f os

theorem putsTo_append (f : File) (a b : List Op) : putsTo f (a ++ b) = putsTo f a ++ putsTo f b := by
  induction a with
  | nil => rfl
  | cons o a ih => cases o <;> simp [putsTo, ih]

theorem run_stream (f : File) : ∀ (ops : List Op) (w : World), (∀ o ∈ ops, ¬ o.turns f) →
    (run w ops).stream f = (w.stream f).map (· ++ putsTo f ops)
  | [], w, _ => by simp [run_nil, putsTo]
  | o :: os, w, h => by
    rw [run_cons, run_stream f os _ (fun p hp => h p (by simp [hp]))]
    have ho := h o (by simp)
    cases o with
    | mkdir n => simp [step, putsTo]
    | «open» g =>
      have : ¬ f = g := fun e => ho (by simp [Op.turns, e])
      simp [step, putsTo, this]
    | close g =>
      have : ¬ f = g := fun e => ho (by simp [Op.turns, e])
      simp [step, putsTo, this]
    | put g ts =>
      by_cases e : f = g
      · subst e
        simp only [step, putsTo, if_true, Option.map_map]
        congr 1
        funext x
        simp
      · simp [step, putsTo, e, Ne.symm e]

theorem run_untouched (f : File) : ∀ (ops : List Op) (w : World), (∀ o ∈ ops, ¬ o.touches f) →
    (run w ops).stream f = w.stream f ∧ (run w ops).disk.file f = w.disk.file f
  | [], w, _ => ⟨rfl, rfl⟩
  | o :: os, w, h => by
    rw [run_cons]
    obtain ⟨h1, h2⟩ := run_untouched f os (step w o) (fun p hp => h p (by simp [hp]))
    have ho := h o (by simp)
    rw [h1, h2]
    cases o with
    | mkdir n => exact ⟨rfl, rfl⟩
    | «open» g =>
      have : ¬ f = g := fun e => ho (by simp [Op.touches, e])
      simp [step, this]
    | close g =>
      have : ¬ f = g := fun e => ho (by simp [Op.touches, e])
      simp [step, this]
    | put g ts =>
      have : ¬ f = g := fun e => ho (by simp [Op.touches, e])
      simp [step, this]

theorem run_dirs : ∀ (ops : List Op) (w : World), (∀ o ∈ ops, ∀ n, o ≠ .mkdir n) → (run w ops).disk.dirs = w.disk.dirs
  | [], w, _ => rfl
  | o :: os, w, h => by
    rw [run_cons, run_dirs os _ (fun p hp => h p (by simp [hp]))]
    have ho := h o (by simp)
    cases o with
    | mkdir n => exact absurd rfl (ho n)
    | _ => rfl

/-! ## Directories -/

theorem setKf_map_fst (n : Int) (f : KfDir) : ∀ l : List (Int × KfDir),
    (setKf n f l).map Prod.fst = if n ∈ l.map Prod.fst then l.map Prod.fst else l.map Prod.fst ++ [n]
  | [] => by simp [setKf]
  | (m, g) :: l => by
    unfold setKf
    by_cases h : m = n
    · subst h; simp
    · rw [if_neg h, List.map_cons, setKf_map_fst n f l]
      have hn : ¬ n = m := fun e => h e.symm
      by_cases hm : n ∈ l.map Prod.fst
      · rw [if_pos hm, if_pos (by simp only [List.map_cons, List.mem_cons]; exact .inr hm)]; rfl
      · rw [if_neg hm, if_neg (by simp only [List.map_cons, List.mem_cons]; rintro (e | e); exacts [hn e, hm e])]; rfl

theorem setKf_lookup (n : Int) (f : KfDir) (k : Int) : ∀ l : List (Int × KfDir),
    (setKf n f l).lookup k = if k = n then some f else l.lookup k
  | [] => by
    by_cases h : k = n
    · simp [setKf, List.lookup, h]
    · have : (k == n) = false := by simpa using h
      simp [setKf, List.lookup, h, this]
  | (m, g) :: l => by
    unfold setKf
    by_cases h : m = n
    · subst h
      by_cases hk : k = m
      · simp [List.lookup, hk]
      · have : (k == m) = false := by simpa using hk
        simp [List.lookup, hk, this]
    · rw [if_neg h]
      by_cases hk : k = m
      · subst hk
        simp [List.lookup, h]
      · have : (k == m) = false := by simpa using hk
        simp only [List.lookup, this]
        exact setKf_lookup n f k l

theorem lookup_mem {l : List (Int × KfDir)} (hn : (l.map Prod.fst).Nodup) {n : Int} {f : KfDir} (h : (n, f) ∈ l) :
    l.lookup n = some f := by
  induction l with
  | nil => simp at h
  | cons x l ih =>
    obtain ⟨m, g⟩ := x
    simp only [List.map_cons, List.nodup_cons] at hn
    rcases List.mem_cons.1 h with e | h
    · cases e; simp [List.lookup]
    · have : n ≠ m := fun e => hn.1 (by rw [← e]; exact List.mem_map_of_mem h)
      have : (n == m) = false := by simpa using this
      simp only [List.lookup, this]
      exact ih hn.2 h

theorem lookup_some {l : List (Int × KfDir)} {n : Int} {f : KfDir} (h : l.lookup n = some f) : (n, f) ∈ l := by
  induction l with
  | nil => cases h
  | cons x l ih =>
    obtain ⟨m, g⟩ := x
    by_cases e : n = m
    · subst e
      simp only [List.lookup, beq_self_eq_true, Option.some.injEq] at h
      simp [h]
    · have : (n == m) = false := by simpa using e
      simp only [List.lookup, this] at h
      exact List.mem_cons_of_mem _ (ih h)

theorem lookup_none {l : List (Int × KfDir)} {n : Int} (h : n ∉ l.map Prod.fst) : l.lookup n = none := by
  induction l with
  | nil => rfl
  | cons x l ih =>
    obtain ⟨m, g⟩ := x
    simp only [List.map_cons, List.mem_cons, not_or] at h
    have : (n == m) = false := by simpa using h.1
    simp only [List.lookup, this]
    exact ih h.2

/-! ## All operations of a store -/

theorem run_tracked (n : Int) : ∀ (fs : List PreKeyFrame) (w : World) (c : List Tok),
    w.stream (.kf n) = some c → (∀ m, w.stream (.tracked m) = none) →
    run w (trackedOps n fs) =
      ⟨⟨w.disk.dirs, fun
          | .tracked m => storeTracked (fun m => w.disk.file (.tracked m)) fs m
          | g => w.disk.file g⟩,
        fun g => if g = .kf n then some (c ++ fs.map (fun f => Tok.int f.globalFrameNum)) else w.stream g⟩
  | [], w, c, h, h' => by
    obtain ⟨⟨dirs, file⟩, stream⟩ := w
    simp only [trackedOps, run_nil, storeTracked, List.map_nil, List.append_nil]
    congr 1
    · congr 1
      funext g
      cases g <;> rfl
    · funext g
      by_cases e : g = .kf n
      · subst e; simpa using h
      · simp [e]
  | f :: fs, w, c, h, h' => by
    rw [trackedOps, run_append]
    obtain ⟨w', hw'⟩ : ∃ w', w' = run w [.put (.kf n) [.int f.globalFrameNum], .open (.tracked f.globalFrameNum), .put (.tracked f.globalFrameNum) (putPreKeyFrame f),
      .close (.tracked f.globalFrameNum)] := ⟨_, rfl⟩
    rw [← hw']
    simp only [run_cons, run_nil, step] at hw'
    rw [run_tracked n fs w' (c ++ [.int f.globalFrameNum]) (by rw [hw']; simp [h]) (by
      intro m
      rw [hw']
      by_cases e : m = f.globalFrameNum
      · simp [e]
      · simp [e, h'])]
    congr 1
    · rw [hw']
      congr 1
      funext g
      cases g with
      | tracked m => 
        simp only [storeTracked]
        congr 1
        funext k
        by_cases e : k = f.globalFrameNum
        · simp [e]
        · simp [e]
      | _ => simp
    · funext g
      by_cases e : g = .kf n
      · simp [e]
      · rw [if_neg e, if_neg e, hw']
        by_cases e' : g = .tracked f.globalFrameNum
        · simp [e', h']
        · simp [e, e']

/-- The operations of `KeyFrameSaver::store` but for the creation of the directory and the opening of `kf.txt`, and closing it. -/
noncomputable def innerOps (kf : KeyFrame) (imm : List Tok) (n : Int) : List Op :=
  [.open (.pkf n), .put (.pkf n) (putPreKeyFrame kf.preKeyFrame), .close (.pkf n),
      .open (.immature n), .put (.kf n) [.int kf.immaturePoints.length], .put (.immature n) imm,
      .open (.optimized n), .put (.kf n) [.int kf.optimizedPoints.length], .put (.optimized n) (kf.optimizedPoints.flatMap putOptimized),
      .put (.kf n) [.int n], .put (.kf n) (putMotion kf.thisToWorld), .put (.kf n) (putLight kf.lightWorldToThis),
      .put (.kf n) [.int kf.trackedFrames.length]] ++ trackedOps n kf.trackedFrames ++
    [.close (.optimized n), .close (.immature n)]

theorem storeOps_eq {ps : Nat} {kf : KeyFrame} {f : KfDir} (hf : keyFrameFiles ps kf = .ok f) :
    storeOps ps kf = .ok (.mkdir (number kf) :: .open (.kf (number kf)) ::
      (innerOps kf f.immaturePoints (number kf) ++ [.close (.kf (number kf))])) ∧
    f.pkf = putPreKeyFrame kf.preKeyFrame ∧ f.kf = ownToks kf ∧
    f.optimizedPoints = kf.optimizedPoints.flatMap putOptimized := by
  unfold keyFrameFiles at hf
  unfold storeOps
  cases hi : kf.immaturePoints.mapM (putImmature ps) with
  | error e => rw [hi] at hf; cases hf
  | ok imm =>
    rw [hi] at hf
    cases hf
    refine ⟨?_, rfl, rfl, rfl⟩
    simp only [bind, Except.bind, innerOps, number]
    congr 1
    simp

/-- All operations of `KeyFrameSaver::store` together. -/
theorem run_store {ps : Nat} {kf : KeyFrame} {f : KfDir} (hf : keyFrameFiles ps kf = .ok f) (d : Dir) :
    ∃ d' ops, storeKeyFrame ps d kf = .ok d' ∧ storeOps ps kf = .ok ops ∧ run d.idle ops = d'.idle := by
  obtain ⟨ho, h1, h2, h3⟩ := storeOps_eq hf
  refine ⟨⟨setKf (number kf) f d.kf, storeTracked d.pkf kf.trackedFrames⟩, _,
      by unfold storeKeyFrame; rw [hf]; rfl, ho, ?_⟩
  obtain ⟨n, hn⟩ : ∃ n, n = number kf := ⟨_, rfl⟩
  rw [← hn]
  unfold innerOps
  rw [run_cons, run_cons, run_append, run_append, run_append]
  simp only [run_cons, run_nil, step, Dir.idle]
  rw [run_tracked n kf.trackedFrames _ ([.int kf.immaturePoints.length, .int kf.optimizedPoints.length, .int n] ++
    putMotion kf.thisToWorld ++ putLight kf.lightWorldToThis ++ [.int kf.trackedFrames.length]) (by simp) (by
    intro m; simp)]
  have hk : f.kf = [.int kf.immaturePoints.length, .int kf.optimizedPoints.length, .int n] ++
      putMotion kf.thisToWorld ++ putLight kf.lightWorldToThis ++ [.int kf.trackedFrames.length] ++
      kf.trackedFrames.map (fun f => Tok.int f.globalFrameNum) := by rw [h2, hn]; rfl
  rw [← hk, ← h1, ← h3]
  congr 1
  · unfold Dir.disk
    congr 1
    · exact (setKf_map_fst n f d.kf).symm
    · funext g
      cases g with
      | tracked m => simp
      | kf m =>
        by_cases e : m = n
        · simp [setKf_lookup, e]
        · simp [setKf_lookup, e]
      | pkf m =>
        by_cases e : m = n
        · simp [setKf_lookup, e]
        · simp [setKf_lookup, e]
      | immature m =>
        by_cases e : m = n
        · simp [setKf_lookup, e]
        · simp [setKf_lookup, e]
      | optimized m =>
        by_cases e : m = n
        · simp [setKf_lookup, e]
        · simp [setKf_lookup, e]
  · funext g
    cases g with
    | tracked m => simp
    | kf m =>
      by_cases e : m = n
      · simp [e]
      · simp [e]
    | pkf m =>
      by_cases e : m = n
      · simp [e]
      · simp [e]
    | immature m =>
      by_cases e : m = n
      · simp [e]
      · simp [e]
    | optimized m =>
      by_cases e : m = n
      · simp [e]
      · simp [e]

/-! ## The moments of a save -/

theorem run_save {ps : Nat} : ∀ (kfs : List KeyFrame), (∀ kf ∈ kfs, ∃ f, keyFrameFiles ps kf = .ok f) →
    ∀ d : Dir, ∃ d' ops, save ps d kfs = .ok d' ∧ saveOps ps kfs = .ok ops ∧ run d.idle ops = d'.idle
  | [], _, d => ⟨d, [], rfl, rfl, rfl⟩
  | kf :: kfs, h, d => by
    obtain ⟨f, hf⟩ := h kf (by simp)
    obtain ⟨d1, o1, e1, eo1, r1⟩ := run_store hf d
    obtain ⟨d2, o2, e2, eo2, r2⟩ := run_save kfs (fun k hk => h k (by simp [hk])) d1
    refine ⟨d2, o1 ++ o2, ?_, ?_, ?_⟩
    · unfold save at e2 ⊢
      rw [List.foldlM_cons, e1]; exact e2
    · unfold saveOps; rw [eo1, eo2]; rfl
    · rw [run_append, r1, r2]

/-- At every moment of a save some keyframes are stored, and at most one is being stored. -/
theorem moments {ps : Nat} : ∀ (kfs : List KeyFrame), (∀ kf ∈ kfs, ∃ f, keyFrameFiles ps kf = .ok f) →
    ∀ (d : Dir) (ops : List Op), saveOps ps kfs = .ok ops → ∀ k, ∃ j d', j ≤ kfs.length ∧ save ps d (kfs.take j) = .ok d' ∧
      (run d.idle (ops.take k) = d'.idle ∨ ∃ kf so i, kf ∈ kfs ∧ storeOps ps kf = .ok so ∧ 0 < i ∧ i < so.length ∧
        run d.idle (ops.take k) = run d'.idle (so.take i))
  | [], _, d, ops, ho, k => by
    cases ho
    exact ⟨0, d, le_refl _, rfl, .inl (by simp [run_nil])⟩
  | kf :: kfs, h, d, ops, ho, k => by
    obtain ⟨f, hf⟩ := h kf (by simp)
    obtain ⟨d1, o1, e1, eo1, r1⟩ := run_store hf d
    obtain ⟨d2, o2, e2, eo2, r2⟩ := run_save kfs (fun k hk => h k (by simp [hk])) d1
    unfold saveOps at ho
    rw [eo1, eo2] at ho
    cases ho
    by_cases hk : k < o1.length
    · refine ⟨0, d, by simp, rfl, ?_⟩
      rw [List.take_append_of_le_length hk.le]
      rcases Nat.eq_zero_or_pos k with rfl | h0
      · exact .inl (by simp [run_nil])
      · exact .inr ⟨kf, o1, k, by simp, eo1, h0, hk, rfl⟩
    · obtain ⟨j, d', hj, hd', H⟩ := moments kfs (fun k hk => h k (by simp [hk])) d1 o2 eo2 (k - o1.length)
      have ht : (o1 ++ o2).take k = o1 ++ o2.take (k - o1.length) := by
        rw [List.take_append, List.take_of_length_le (by omega)]
      refine ⟨j + 1, d', by simpa using hj, ?_, ?_⟩
      · rw [List.take_succ_cons]
        unfold save at hd' ⊢
        rw [List.foldlM_cons, e1]; exact hd'
      · rw [ht, run_append, r1]
        rcases H with H | ⟨x, so, i, hx, h1, h2, h3, h4⟩
        · exact .inl H
        · exact .inr ⟨x, so, i, by simp [hx], h1, h2, h3, h4⟩

/-- A moment between two keyframes is among them. -/
theorem moment_between {ps : Nat} : ∀ (kfs : List KeyFrame), (∀ kf ∈ kfs, ∃ f, keyFrameFiles ps kf = .ok f) →
    ∀ (d : Dir) (ops : List Op), saveOps ps kfs = .ok ops → ∀ j, ∃ k d', save ps d (kfs.take j) = .ok d' ∧
      run d.idle (ops.take k) = d'.idle ∧
      ∀ kf f, kfs[j]? = some kf → keyFrameFiles ps kf = .ok f → run d.idle (ops.take (k + 2)) =
        run d'.idle [.mkdir (number kf), .open (.kf (number kf))]
  | [], _, d, ops, ho, j => by
    cases ho
    exact ⟨0, d, by simp; rfl, by simp [run_nil], fun kf f h => by simp at h⟩
  | kf :: kfs, h, d, ops, ho, j => by
    obtain ⟨f, hf⟩ := h kf (by simp)
    obtain ⟨d1, o1, e1, eo1, r1⟩ := run_store hf d
    obtain ⟨d2, o2, e2, eo2, r2⟩ := run_save kfs (fun k hk => h k (by simp [hk])) d1
    unfold saveOps at ho
    rw [eo1, eo2] at ho
    cases ho
    cases j with
    | zero =>
      refine ⟨0, d, rfl, by simp [run_nil], ?_⟩
      intro k f' hk hf'
      simp only [List.getElem?_cons_zero, Option.some.injEq] at hk
      subst hk
      rw [(storeOps_eq hf').1] at eo1
      cases eo1
      rfl
    | succ j =>
      obtain ⟨k, d', hs, hr, hn⟩ := moment_between kfs (fun k hk => h k (by simp [hk])) d1 o2 eo2 j
      have ht : ∀ k, (o1 ++ o2).take (o1.length + k) = o1 ++ o2.take k := by
        intro k
        rw [List.take_append, List.take_of_length_le (by omega)]
        congr 2; omega
      refine ⟨o1.length + k, d', ?_, ?_, ?_⟩
      · rw [List.take_succ_cons]
        unfold save at hs ⊢
        rw [List.foldlM_cons, e1]; exact hs
      · rw [ht, run_append, r1, hr]
      · intro k' f' hk' hf'
        rw [Nat.add_assoc, ht, run_append, r1]
        exact hn k' f' (by simpa using hk') hf'

/-! ## A keyframe that is being stored -/

theorem killed_idle {d : Dir} {dk : Disk} : Killed d.idle dk ↔ dk = d.disk := by
  constructor
  · rintro ⟨h1, h2⟩
    cases dk
    simp only [Dir.idle] at h1 h2
    subst h1
    congr 1
    funext f
    exact h2 f
  · rintro rfl
    exact ⟨rfl, fun f => rfl⟩

theorem trackedOps_mem {n : Int} : ∀ (fs : List PreKeyFrame) (o : Op), o ∈ trackedOps n fs →
    (¬ o.turns (.kf n)) ∧ (∀ m, o ≠ .mkdir m) ∧ ∀ g : File, g ≠ .kf n → (∀ f ∈ fs, g ≠ .tracked f.globalFrameNum) → ¬ o.touches g
  | [], o, h => by simp [trackedOps] at h
  | f :: fs, o, h => by
    unfold trackedOps at h
    rw [List.mem_append] at h
    rcases h with h | h
    · simp only [List.mem_cons, List.not_mem_nil, or_false] at h
      rcases h with rfl | rfl | rfl | rfl
      · exact ⟨by simp [Op.turns], by simp, fun g h1 h2 => by simp [Op.touches, Ne.symm h1]⟩
      · exact ⟨by simp [Op.turns], by simp, fun g h1 h2 => by
          have := h2 f (by simp); simp [Op.touches, Ne.symm this]⟩
      · exact ⟨by simp [Op.turns], by simp, fun g h1 h2 => by
          have := h2 f (by simp); simp [Op.touches, Ne.symm this]⟩
      · exact ⟨by simp [Op.turns], by simp, fun g h1 h2 => by
          have := h2 f (by simp); simp [Op.touches, Ne.symm this]⟩
    · obtain ⟨h1, h2, h3⟩ := trackedOps_mem fs o h
      exact ⟨h1, h2, fun g hg hg' => h3 g hg fun f hf => hg' f (by simp [hf])⟩

theorem innerOps_mem {kf : KeyFrame} {imm : List Tok} {n : Int} (o : Op) (h : o ∈ innerOps kf imm n) :
    (¬ o.turns (.kf n)) ∧ (∀ m, o ≠ .mkdir m) ∧ ∀ g : File, g ≠ .kf n → g ≠ .pkf n → g ≠ .immature n → g ≠ .optimized n →
      (∀ f ∈ kf.trackedFrames, g ≠ .tracked f.globalFrameNum) → ¬ o.touches g := by
  unfold innerOps at h
  rw [List.mem_append, List.mem_append] at h
  rcases h with (h | h) | h
  · simp only [List.mem_cons, List.not_mem_nil, or_false] at h
    refine ⟨?_, ?_, ?_⟩
    · rcases h with rfl | rfl | rfl | rfl | rfl | rfl | rfl | rfl | rfl | rfl | rfl | rfl | rfl <;> simp [Op.turns]
    · rcases h with rfl | rfl | rfl | rfl | rfl | rfl | rfl | rfl | rfl | rfl | rfl | rfl | rfl <;> simp
    · intro g h1 h2 h3 h4 h5
      rcases h with rfl | rfl | rfl | rfl | rfl | rfl | rfl | rfl | rfl | rfl | rfl | rfl | rfl <;>
        simp [Op.touches, Ne.symm h1, Ne.symm h2, Ne.symm h3, Ne.symm h4]
  · obtain ⟨h1, h2, h3⟩ := trackedOps_mem _ o h
    exact ⟨h1, h2, fun g hg _ _ _ hg' => h3 g hg hg'⟩
  · simp only [List.mem_cons, List.not_mem_nil, or_false] at h
    refine ⟨?_, ?_, ?_⟩
    · rcases h with rfl | rfl <;> simp [Op.turns]
    · rcases h with rfl | rfl <;> simp
    · intro g h1 h2 h3 h4 h5
      rcases h with rfl | rfl <;> simp [Op.touches, Ne.symm h3, Ne.symm h4]

theorem putsTo_tracked (n : Int) : ∀ fs : List PreKeyFrame,
    putsTo (.kf n) (trackedOps n fs) = fs.map (fun f => Tok.int f.globalFrameNum)
  | [] => rfl
  | f :: fs => by
    rw [trackedOps, putsTo_append, putsTo_tracked n fs]
    simp [putsTo]

theorem putsTo_inner (kf : KeyFrame) (imm : List Tok) : putsTo (.kf (number kf)) (innerOps kf imm (number kf)) = ownToks kf := by
  unfold innerOps
  rw [putsTo_append, putsTo_append, putsTo_tracked]
  simp [putsTo, ownToks, number]

theorem ownToks_ne (kf : KeyFrame) : ownToks kf ≠ [] := by simp [ownToks]

/-! ## Loading -/

theorem fold_ok {L : Int → Except Fault KeyFrame} : ∀ (order : List Int) (m : List KeyFrame),
    m.Pairwise (fun a b => number a < number b) → order.Nodup → (∀ k ∈ m, number k ∉ order) →
    (∀ n ∈ order, ∃ k, L n = .ok k ∧ number k = n) →
    ∃ m', order.foldlM (fun m n => do
        let kf ← L n
        insertNew kf m) m = .ok m' ∧ m'.Pairwise (fun a b => number a < number b) ∧
      ∀ k, k ∈ m' ↔ k ∈ m ∨ ∃ n ∈ order, L n = .ok k
  | [], m, hp, _, _, _ => ⟨m, rfl, hp, by simp⟩
  | e :: order, m, hp, hn, hd, hl => by
    obtain ⟨k, ek, hk⟩ := hl e (by simp)
    rw [List.nodup_cons] at hn
    obtain ⟨m1, e1, hp1, hm1⟩ := insertNew_ok k m hp (by
      intro a ha h
      exact hd a ha (by rw [h, hk]; simp))
    obtain ⟨m', e', hp', hm'⟩ := fold_ok order m1 hp1 hn.2 (by
      intro a ha
      rcases (hm1 a).1 ha with rfl | ha
      · rw [hk]; exact hn.1
      · intro h; exact hd a ha (by simp [h])) (fun x hx => hl x (by simp [hx]))
    refine ⟨m', ?_, hp', ?_⟩
    · rw [List.foldlM_cons, ek]
      change (insertNew k m >>= _) = _
      rw [e1]; exact e'
    · intro a
      rw [hm', hm1]
      constructor
      · rintro ((rfl | h) | ⟨x, hx, h⟩)
        · exact .inr ⟨e, by simp, ek⟩
        · exact .inl h
        · exact .inr ⟨x, by simp [hx], h⟩
      · rintro (h | ⟨x, hx, h⟩)
        · exact .inl (.inr h)
        · rcases List.mem_cons.1 hx with rfl | hx
          · rw [ek] at h; cases h; exact .inl (.inl rfl)
          · exact .inr ⟨x, hx, h⟩

theorem fold_error {L : Int → Except Fault KeyFrame} {n : Int} {err : Fault} (he : L n = .error err) :
    ∀ (order : List Int) (m : List KeyFrame),
    m.Pairwise (fun a b => number a < number b) → order.Nodup → (∀ k ∈ m, number k ∉ order) → n ∈ order →
    (∀ i ∈ order, i ≠ n → ∃ k, L i = .ok k ∧ number k = i) →
    order.foldlM (fun m n => do
        let kf ← L n
        insertNew kf m) m = .error err
  | [], m, hp, _, _, h, _ => by simp at h
  | e :: order, m, hp, hn, hd, hmem, hl => by
    rw [List.nodup_cons] at hn
    by_cases hen : e = n
    · subst hen
      rw [List.foldlM_cons, he]; rfl
    · obtain ⟨k, ek, hk⟩ := hl e (by simp) hen
      obtain ⟨m1, e1, hp1, hm1⟩ := insertNew_ok k m hp (by
        intro a ha h
        exact hd a ha (by rw [h, hk]; simp))
      rw [List.foldlM_cons, ek]
      change (insertNew k m >>= _) = _
      rw [e1]
      refine fold_error he order m1 hp1 hn.2 ?_ ?_ (fun x hx => hl x (by simp [hx]))
      · intro a ha
        rcases (hm1 a).1 ha with rfl | ha
        · rw [hk]; exact hn.1
        · intro h; exact hd a ha (by simp [h])
      · rcases List.mem_cons.1 hmem with h | h
        · exact absurd h.symm hen
        · exact h

theorem loadFrom_ok {ps : Nat} (h1 : 1 ≤ ps) {kf : KeyFrame} (hr : Regular ps kf) {f : KfDir}
    (hf : keyFrameFiles ps kf = .ok f) {dk : Disk} {n : Int}
    (a : dk.file (.pkf n) = some f.pkf) (b : dk.file (.kf n) = some f.kf) (c : dk.file (.immature n) = some f.immaturePoints)
    (e : dk.file (.optimized n) = some f.optimizedPoints)
    (ht : ∀ g ∈ kf.trackedFrames, dk.file (.tracked g.globalFrameNum) = some (putPreKeyFrame g)) :
    loadFrom ps dk n = .ok (reload kf) := by
  obtain ⟨f', hf', hl⟩ := keyFrameFiles_ok h1 hr
  rw [hf] at hf'; cases hf'
  unfold loadFrom
  simp only [a, b, c, e]
  have := hl ⟨[], fun m => dk.file (.tracked m)⟩ ht
  change indeterminate (loadKeyFrame ps _ f) = _
  rw [this]; rfl

theorem holds_load {ps : Nat} (h1 : 1 ≤ ps) {saved : List KeyFrame} (hr : ∀ kf ∈ saved, Regular ps kf) {d : Dir}
    (H : Holds ps d saved) {n : Int} (hn : n ∈ d.disk.dirs) :
    ∃ kf, LastVersion saved kf ∧ number kf = n ∧ loadFrom ps d.disk n = .ok (reload kf) := by
  obtain ⟨⟨n', f⟩, hm, rfl⟩ := List.mem_map.1 hn
  obtain ⟨kf, hk, hkn, hf⟩ := H.sound n' f hm
  have hl := lookup_mem H.nodup hm
  refine ⟨kf, hk, hkn, loadFrom_ok h1 (hr kf (lastVersion_mem hk)) hf ?_ ?_ ?_ ?_ (H.tracked kf hk)⟩ <;>
    simp [Dir.disk, hl]

/-- Loading a complete directory. -/
theorem loadDisk_holds {ps : Nat} (h1 : 1 ≤ ps) {saved : List KeyFrame} (hr : ∀ kf ∈ saved, Regular ps kf) {d : Dir}
    (H : Holds ps d saved) {order : List Int} (hp : order.Perm d.disk.dirs) :
    ∃ m, loadDisk ps d.disk order = .ok m ∧ m.Pairwise (fun a b => number a < number b) ∧
      ∀ k, k ∈ m ↔ ∃ kf, LastVersion saved kf ∧ k = reload kf := by
  obtain ⟨m, em, hpm, hm⟩ := fold_ok (L := loadFrom ps d.disk) order [] (by simp) (hp.nodup_iff.2 H.nodup) (by simp) (by
    intro n hn
    obtain ⟨kf, _, hkn, hl⟩ := holds_load h1 hr H (hp.mem_iff.1 hn)
    exact ⟨_, hl, hkn⟩)
  refine ⟨m, em, hpm, ?_⟩
  intro k
  rw [hm]
  constructor
  · rintro (h | ⟨n, hn, h⟩)
    · simp at h
    · obtain ⟨kf, hk, hkn, hl⟩ := holds_load h1 hr H (hp.mem_iff.1 hn)
      rw [hl] at h; cases h
      exact ⟨kf, hk, rfl⟩
  · rintro ⟨kf, hk, rfl⟩
    obtain ⟨f, hf, ef⟩ := H.complete kf hk
    have hn : number kf ∈ d.disk.dirs := List.mem_map.2 ⟨_, hf, rfl⟩
    have hl := lookup_mem H.nodup hf
    refine .inr ⟨number kf, hp.mem_iff.2 hn, loadFrom_ok h1 (hr kf (lastVersion_mem hk)) ef ?_ ?_ ?_ ?_ (H.tracked kf hk)⟩ <;>
      simp [Dir.disk, hl]

theorem killed_closed {w : World} {dk : Disk} (hk : Killed w dk) {f : File} (h : w.stream f = none) :
    dk.file f = w.disk.file f := by
  have := hk.2 f
  rw [h] at this
  exact this

theorem killed_open {w : World} {dk : Disk} (hk : Killed w dk) {f : File} {ts : List Tok} (h : w.stream f = some ts) :
    ∃ k, (k < ts.length ∨ k = 0) ∧ dk.file f = some (ts.take k) := by
  have := hk.2 f
  rw [h] at this
  exact this

theorem readPre_part (g : PreKeyFrame) (j : Nat) :
    (∃ y, readFile getPreKeyFrame (some ((putPreKeyFrame g).take j)) = .ok y) ∨
      readFile getPreKeyFrame (some ((putPreKeyFrame g).take j)) = .error .exception := by
  have h := getPreKeyFrame_ok g []
  rw [List.append_nil, ← List.take_append_drop j (putPreKeyFrame g)] at h
  unfold readFile
  rcases local_getPreKeyFrame.prefix h with ⟨y, e⟩ | e
  · left; simp only [e]; exact ⟨_, rfl⟩
  · right; simp only [e]

theorem readOwn_cut {kf : KeyFrame} {ts u : List Tok} (h : ts ++ u = ownToks kf) (hu : u ≠ []) :
    readFile getOwnData (some ts) = .error .exception := by
  obtain ⟨a, ha⟩ := getOwnData_toks kf
  rw [← h] at ha
  unfold readFile
  simp only [local_getOwnData.cut hu ha]

theorem loadFrom_cut {ps : Nat} {dk : Disk} {n : Int} {ts : List Tok} (hk : dk.file (.kf n) = some ts)
    (ho : readFile getOwnData (some ts) = .error .exception)
    (hp : ∀ a, dk.file (.pkf n) = some a → (∃ y, readFile getPreKeyFrame (some a) = .ok y) ∨
      readFile getPreKeyFrame (some a) = .error .exception) :
    loadFrom ps dk n = .error .ub := by
  unfold loadFrom
  cases ha : dk.file (.pkf n) with
  | none => rfl
  | some a =>
    rw [hk]
    cases hc : dk.file (.immature n) with
    | none => rfl
    | some c =>
      cases he : dk.file (.optimized n) with
      | none => rfl
      | some e =>
        change indeterminate (loadKeyFrame ps _ _) = _
        unfold loadKeyFrame
        rcases hp a ha with ⟨y, h⟩ | h
        · simp only [h, ho, bind, Except.bind]; rfl
        · simp only [h, bind, Except.bind]; rfl

/-- The file `pkf.txt` of a keyframe that is being stored: the old one, or a part of the new one. -/
theorem inner_pkf {kf : KeyFrame} {imm : List Tok} {n : Int} {w : World} (hw : w.stream (.pkf n) = none) (i : Nat) {dk : Disk}
    (hk : Killed (run w ((innerOps kf imm n).take i)) dk) :
    dk.file (.pkf n) = w.disk.file (.pkf n) ∨ ∃ j, dk.file (.pkf n) = some ((putPreKeyFrame kf.preKeyFrame).take j) := by
  have hi : innerOps kf imm n = [.open (.pkf n), .put (.pkf n) (putPreKeyFrame kf.preKeyFrame), .close (.pkf n)] ++
      ((innerOps kf imm n).drop 3) := rfl
  rcases i with _ | _ | _ | i
  · left
    exact killed_closed hk hw
  · right
    obtain ⟨k, -, h⟩ := killed_open (f := .pkf n) (ts := []) hk (by
      rw [hi]; simp [run_cons, run_nil, step])
    exact ⟨0, by rw [h]; simp⟩
  · right
    obtain ⟨k, -, h⟩ := killed_open (f := .pkf n) (ts := putPreKeyFrame kf.preKeyFrame) hk (by
      rw [hi]; simp [run_cons, run_nil, step])
    exact ⟨k, h⟩
  · right
    have ht : (innerOps kf imm n).take (i + 3) = [.open (.pkf n), .put (.pkf n) (putPreKeyFrame kf.preKeyFrame), .close (.pkf n)] ++
        ((innerOps kf imm n).drop 3).take i := by
      rw [hi]; rfl
    have hu : ∀ o ∈ ((innerOps kf imm n).drop 3).take i, ¬ o.touches (.pkf n) := by
      intro o ho
      have ho := List.mem_of_mem_take ho
      unfold innerOps at ho
      simp only [List.cons_append, List.drop_succ_cons, List.drop_zero, List.nil_append, List.mem_cons, List.mem_append,
        List.not_mem_nil, or_false] at ho
      rcases ho with rfl | rfl | rfl | rfl | rfl | rfl | rfl | rfl | rfl | rfl | ho | rfl | rfl
      all_goals first
        | (simp [Op.touches]; done)
        | exact (trackedOps_mem _ o ho).2.2 _ (by simp) (by simp)
    rw [ht, run_append] at hk
    obtain ⟨h1, h2⟩ := run_untouched (.pkf n) _ (run w [.open (.pkf n), .put (.pkf n) (putPreKeyFrame kf.preKeyFrame), .close (.pkf n)]) hu
    refine ⟨(putPreKeyFrame kf.preKeyFrame).length, ?_⟩
    rw [killed_closed hk (by rw [h1]; simp [run_cons, run_nil, step]), h2]
    simp [run_cons, run_nil, step]

/-- If the process is killed while it stores a keyframe, either nothing has happened yet, or this keyframe cannot be loaded; all others can. -/
theorem torn {ps : Nat} (h1 : 1 ≤ ps) {saved : List KeyFrame} {kf : KeyFrame} (hr : ∀ k ∈ saved ++ [kf], Regular ps k)
    (ho : OneBase (saved ++ [kf])) {d : Dir} (H : Holds ps d saved) {so : List Op} (hs : storeOps ps kf = .ok so) {i : Nat}
    (hi : i < so.length) {dk : Disk} (hk : Killed (run d.idle (so.take i)) dk) :
    dk = d.disk ∨ (number kf ∈ dk.dirs ∧ dk.dirs.Nodup ∧ loadFrom ps dk (number kf) = .error .ub ∧
      ∀ m ∈ dk.dirs, m ≠ number kf → ∃ k, loadFrom ps dk m = .ok k ∧ number k = m) := by
  obtain ⟨f, hf, -⟩ := keyFrameFiles_ok h1 (hr kf (by simp))
  obtain ⟨hs', -, -, -⟩ := storeOps_eq hf
  rw [hs] at hs'
  cases hs'
  obtain ⟨n, hn⟩ : ∃ n, n = number kf := ⟨_, rfl⟩
  rw [← hn] at hi hk ⊢
  have hnd : d.disk.dirs.Nodup := H.nodup
  -- the directories
  obtain ⟨ds, hds⟩ : ∃ ds, ds = if n ∈ d.disk.dirs then d.disk.dirs else d.disk.dirs ++ [n] := ⟨_, rfl⟩
  have hmem : n ∈ ds := by
    rw [hds]; by_cases h : n ∈ d.disk.dirs
    · rw [if_pos h]; exact h
    · rw [if_neg h]; simp
  have hnds : ds.Nodup := by
    rw [hds]; by_cases h : n ∈ d.disk.dirs
    · rw [if_pos h]; exact hnd
    · rw [if_neg h, List.nodup_append]
      exact ⟨hnd, by simp, fun a ha b hb e => h (by simp at hb; rw [← hb, ← e]; exact ha)⟩
  have hsub : ∀ m ∈ ds, m ≠ n → m ∈ d.disk.dirs := by
    intro m hm hne
    rw [hds] at hm; by_cases h : n ∈ d.disk.dirs
    · rw [if_pos h] at hm; exact hm
    · rw [if_neg h, List.mem_append] at hm
      rcases hm with hm | hm
      · exact hm
      · simp at hm; exact absurd hm hne
  -- other keyframes, if the files are untouched
  have hother : dk.dirs = ds → (∀ g : File, g ≠ .kf n → g ≠ .pkf n → g ≠ .immature n → g ≠ .optimized n →
      (∀ t ∈ kf.trackedFrames, g ≠ .tracked t.globalFrameNum) → dk.file g = d.disk.file g) →
      ∀ m ∈ dk.dirs, m ≠ n → ∃ k, loadFrom ps dk m = .ok k ∧ number k = m := by
    intro hd hfile m hm hne
    rw [hd] at hm
    obtain ⟨⟨n', f'⟩, hm', e⟩ := List.mem_map.1 (hsub m hm hne)
    simp only at e
    subst e
    obtain ⟨x, hx, hxn, hxf⟩ := H.sound n' f' hm'
    have hl := lookup_mem H.nodup hm'
    refine ⟨reload x, loadFrom_ok h1 (hr x (by simp [lastVersion_mem hx])) hxf ?_ ?_ ?_ ?_ ?_, hxn⟩
    · rw [hfile _ (by simp) (by simpa using hne) (by simp) (by simp) (by simp)]; simp [Dir.disk, hl]
    · rw [hfile _ (by simpa using hne) (by simp) (by simp) (by simp) (by simp)]; simp [Dir.disk, hl]
    · rw [hfile _ (by simp) (by simp) (by simpa using hne) (by simp) (by simp)]; simp [Dir.disk, hl]
    · rw [hfile _ (by simp) (by simp) (by simp) (by simpa using hne) (by simp)]; simp [Dir.disk, hl]
    · intro g hg
      rw [hfile _ (by simp) (by simp) (by simp) (by simp) ?_]
      · exact H.tracked x hx g hg
      · intro t ht e
        simp only [File.tracked.injEq] at e
        refine hne ?_
        rw [hn, ← hxn]
        exact ho x (by simp [lastVersion_mem hx]) kf (by simp) g hg t ht e
  rcases i with _ | _ | i
  · left
    exact killed_idle.1 hk
  · -- only the directory is made
    have hk' : Killed ⟨⟨ds, d.disk.file⟩, fun _ => none⟩ dk := by
      have : run d.idle [.mkdir n] = ⟨⟨ds, d.disk.file⟩, fun _ => none⟩ := by rw [hds]; rfl
      rw [← this]; exact hk
    have hdd : dk.dirs = ds := hk'.1
    have hff : ∀ g, dk.file g = d.disk.file g := fun g => killed_closed hk' rfl
    by_cases h : n ∈ d.disk.dirs
    · left
      obtain ⟨dirs, file⟩ := dk
      obtain ⟨dirs', file', e⟩ : ∃ a b, d.disk = ⟨a, b⟩ := ⟨_, _, rfl⟩
      rw [if_pos h] at hds
      simp only at hdd hff
      rw [hdd, hds]
      rw [show file = d.disk.file from funext hff]
    · right
      refine ⟨by rw [hdd]; exact hmem, by rw [hdd]; exact hnds, ?_, hother hdd fun g _ _ _ _ _ => hff g⟩
      unfold loadFrom
      rw [hff, show d.disk.file (.pkf n) = none by simp [Dir.disk, lookup_none h]]
  · right
    have htk : (Op.mkdir n :: Op.open (.kf n) :: (innerOps kf f.immaturePoints n ++ [.close (.kf n)])).take (i + 1 + 1) =
        [.mkdir n, .open (.kf n)] ++ (innerOps kf f.immaturePoints n).take i := by
      rw [List.take_succ_cons, List.take_succ_cons, List.take_append_of_le_length]
      · rfl
      · simp at hi; omega
    rw [htk, run_append] at hk
    obtain ⟨w, hw⟩ : ∃ w, w = run d.idle [.mkdir n, .open (.kf n)] := ⟨_, rfl⟩
    rw [← hw] at hk
    have hmem' : ∀ o ∈ (innerOps kf f.immaturePoints n).take i, o ∈ innerOps kf f.immaturePoints n :=
      fun o h => List.mem_of_mem_take h
    have hws : ∀ g, g ≠ .kf n → w.stream g = none ∧ w.disk.file g = d.disk.file g := by
      intro g hg
      rw [hw]; simp [run_cons, run_nil, step, hg, Dir.idle]
    have hdd : dk.dirs = ds := by
      rw [hk.1, run_dirs _ _ fun o h m => (innerOps_mem o (hmem' o h)).2.1 m, hw, hds]
      simp [run_cons, run_nil, step, Dir.idle]
    refine ⟨by rw [hdd]; exact hmem, by rw [hdd]; exact hnds, ?_, hother hdd ?_⟩
    · -- the stream of `kf.txt`
      have hst := run_stream (.kf n) ((innerOps kf f.immaturePoints n).take i) w
        (fun o h => (innerOps_mem o (hmem' o h)).1)
      rw [show w.stream (.kf n) = some [] by rw [hw]; simp [run_cons, run_nil, step]] at hst
      simp only [Option.map_some, List.nil_append] at hst
      obtain ⟨k, hk1, hk2⟩ := killed_open hk hst
      have hcat : putsTo (.kf n) ((innerOps kf f.immaturePoints n).take i) ++
          putsTo (.kf n) ((innerOps kf f.immaturePoints n).drop i) = ownToks kf := by
        rw [← putsTo_append, List.take_append_drop, hn, putsTo_inner]
      obtain ⟨P, hP⟩ : ∃ P, P = putsTo (.kf n) ((innerOps kf f.immaturePoints n).take i) := ⟨_, rfl⟩
      rw [← hP] at hk1 hk2 hcat
      refine loadFrom_cut hk2 (readOwn_cut (kf := kf) (u := P.drop k ++ putsTo (.kf n) ((innerOps kf f.immaturePoints n).drop i)) ?_ ?_) ?_
      · rw [← List.append_assoc, List.take_append_drop, hcat]
      · intro e
        rcases hk1 with h | h
        · have := congrArg List.length e
          simp at this
          omega
        · subst h
          rw [List.drop_zero, hcat] at e
          exact ownToks_ne kf e
      · intro a ha
        rcases inner_pkf (hws (.pkf n) (by simp)).1 i hk with h | ⟨j, h⟩
        · rw [h, (hws (.pkf n) (by simp)).2] at ha
          by_cases hnm : n ∈ d.disk.dirs
          · obtain ⟨⟨n', f'⟩, hm', e⟩ := List.mem_map.1 hnm
            simp only at e
            subst e
            obtain ⟨x, hx, hxn, hxf⟩ := H.sound n' f' hm'
            simp only [Dir.disk, lookup_mem H.nodup hm', Option.map_some, Option.some.injEq] at ha
            rw [← ha, (storeOps_eq hxf).2.1]
            have := readPre_part x.preKeyFrame (putPreKeyFrame x.preKeyFrame).length
            rwa [List.take_length] at this
          · simp [Dir.disk, lookup_none hnm] at ha
        · rw [h] at ha
          cases ha
          exact readPre_part _ _
    · intro g g1 g2 g3 g4 g5
      obtain ⟨u1, u2⟩ := run_untouched g _ w fun o h => (innerOps_mem o (hmem' o h)).2.2 g g1 g2 g3 g4 g5
      rw [killed_closed hk (by rw [u1]; exact (hws g g1).1), u2]
      exact (hws g g1).2

end Mdso.Snap
