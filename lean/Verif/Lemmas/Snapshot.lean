import Mathlib.Data.List.Basic
import Mathlib.Data.List.Forall2
import Mathlib.Data.List.Nodup
import Verif.Model.Snapshot
import Verif.Spec.Snapshot

/-!
# Lemmas about snapshots
-/

set_option autoImplicit false

namespace Mdso.Snap

open Mdso.SnapSpec

variable {α β : Type}

theorem bind_ok {m : Read α} {f : α → Read β} {ts ts' : List Tok} {a : α}
    (h : m ts = .ok (a, ts')) : (m >>= f) ts = f a ts' := by
  change (StateT.bind m f) ts = _
  unfold StateT.bind
  rw [h]; rfl

theorem pure_ok (a : α) (ts : List Tok) : (pure a : Read α) ts = .ok (a, ts) := rfl

theorem lift_ok {x : Except Fault α} {a : α} (h : x = .ok a) (ts : List Tok) :
    (StateT.lift x : Read α) ts = .ok (a, ts) := by subst h; rfl

theorem getDbl_ok (x : Dbl) (r : List Tok) : getDbl (.num x :: r) = .ok (x, r) := rfl
theorem getInt_ok (n : Int) (r : List Tok) : getInt (.int n :: r) = .ok (n, r) := rfl
theorem getReal_ok (x : ℝ) (r : List Tok) : getReal (.num (.fin x) :: r) = .ok (x, r) := rfl

theorem getD2_ok (v : D2) (r : List Tok) : getD2 (putD2 v ++ r) = .ok (v, r) := rfl

theorem getD3_ok (v : D3) (r : List Tok) : getD3 (putD3 v ++ r) = .ok (v, r) := rfl

theorem getLight_ok (v : Light) (r : List Tok) : getLight (putLight v ++ r) = .ok (v, r) := rfl

theorem setQuaternion_unit (q : Rot) : setQuaternion q.x q.y q.z q.w = .ok q := by
  unfold setQuaternion
  have h : ¬ q.x ^ 2 + q.y ^ 2 + q.z ^ 2 + q.w ^ 2 = 0 := by rw [q.unit]; norm_num
  rw [dif_neg h]
  cases q with
  | mk x y z w u =>
    simp only [u, Real.sqrt_one, div_one]

theorem getRot_ok (q : Rot) (r : List Tok) : getRot (putRot q ++ r) = .ok (q, r) := by
  unfold getRot putRot
  simp only [List.cons_append, List.nil_append]
  rw [bind_ok (getReal_ok _ _), bind_ok (getReal_ok _ _), bind_ok (getReal_ok _ _),
    bind_ok (getReal_ok _ _), lift_ok (setQuaternion_unit q)]

theorem getMotion_ok (m : Motion) (r : List Tok) : getMotion (putMotion m ++ r) = .ok (m, r) := by
  unfold getMotion putMotion
  rw [List.append_assoc, bind_ok (getRot_ok _ _)]
  simp only [List.cons_append, List.nil_append]
  rw [bind_ok (getReal_ok _ _), bind_ok (getReal_ok _ _), bind_ok (getReal_ok _ _), pure_ok]

theorem getState_ok (s : PState) (r : List Tok) : getState (.int s.toInt :: r) = .ok (s, r) := by
  cases s <;> rfl

theorem Dbl.neg_neg (x : Dbl) : x.neg.neg = x := by
  cases x with
  | fin x => simp [Dbl.neg]
  | inf b => simp [Dbl.neg]
  | nan => rfl

theorem putEach_ok (put : α → List Tok) (v : List α) : ∀ n, n ≤ v.length →
    putEach put v n = .ok ((v.take n).flatMap put)
  | 0, _ => rfl
  | n + 1, h => by
    unfold putEach
    rw [putEach_ok put v n (by omega)]
    have := at'_lt (l := v) (i := n) (by omega)
    change (do let a ← at' v n; Except.ok (List.flatMap put (List.take n v) ++ put a)) = _
    rw [this, List.take_add_one, List.getElem?_eq_getElem (by omega : n < v.length)]
    simp only [Option.toList_some, List.flatMap_append, List.flatMap_cons, List.flatMap_nil,
      List.append_nil]
    rfl

theorem getEach_ok (get : Read α) (put : α → List Tok)
    (h : ∀ a r, get (put a ++ r) = .ok (a, r)) (r : List Tok) :
    ∀ l : List α, getEach get l.length (l.flatMap put ++ r) = .ok (l, r) := by
  intro l
  induction l using List.reverseRecOn generalizing r with
  | nil => rfl
  | append_singleton l a ih =>
    rw [List.length_append, List.length_singleton, List.flatMap_append, List.append_assoc]
    unfold getEach
    rw [bind_ok (ih _)]
    simp only [List.flatMap_cons, List.flatMap_nil, List.append_nil]
    rw [bind_ok (h a r), pure_ok]

/-- What loading makes of a stored immature point. -/
def reloadImmature (p : Immature) : Immature :=
  { p with
    lastTraced := !p.maxDepth.isInf
    numTraced := if p.maxDepth.isInf then 0 else 1
    tracedPyrLevel := 0 }

theorem reloadImmature_same (p : Immature) : SameImmature p (reloadImmature p) :=
  ⟨rfl, rfl, rfl, rfl, rfl, rfl, rfl, rfl, rfl, rfl, rfl, rfl⟩

/-- What loading makes of a stored optimized point. -/
def reloadOptimized (p : Optimized) : Optimized := { p with state := none }

theorem reloadOptimized_same (p : Optimized) : SamePlace p (reloadOptimized p) :=
  ⟨rfl, rfl, rfl, rfl⟩

theorem set_zero_head {l : List α} {a : α} (h : l[0]? = some a) : l.set 0 a = l := by
  cases l with
  | nil => rfl
  | cons b l => simp at h; subst h; rfl

/-- The tokens of an immature point. -/
def immatureToks (p : Immature) (dir0 : D3) : List Tok :=
  putD2 p.p ++ p.baseDirections.flatMap putD3 ++ putD3 dir0 ++
    p.baseIntencities.flatMap (fun x => [Tok.num x]) ++ p.baseGrad.flatMap putD2 ++
    p.baseGradNorm.flatMap putD2 ++
    [.num p.minDepth, .num p.maxDepth, .num p.depth, .num p.bestQuality, .num p.lastEnergy,
      .num p.stddev, .int p.state.toInt]

theorem putImmature_ok {ps : Nat} (h1 : 1 ≤ ps) {p : Immature} (h : PatternSized ps p) :
    ∃ d, p.baseDirections[0]? = some d ∧ putImmature ps p = .ok (immatureToks p d) := by
  obtain ⟨ha, hb, hc, hd⟩ := h
  have h0 : 0 < p.baseDirections.length := by omega
  refine ⟨p.baseDirections[0], List.getElem?_eq_getElem h0, ?_⟩
  unfold putImmature
  rw [putEach_ok putD3 p.baseDirections ps (by omega),
    putEach_ok _ p.baseIntencities ps (by omega), putEach_ok putD2 p.baseGrad ps (by omega),
    putEach_ok putD2 p.baseGradNorm ps (by omega), at'_lt h0,
    List.take_of_length_le (by omega), List.take_of_length_le (by omega),
    List.take_of_length_le (by omega), List.take_of_length_le (by omega)]
  rfl

theorem getImmature_toks {ps : Nat} {p : Immature} (h : PatternSized ps p) {d : D3}
    (h0 : p.baseDirections[0]? = some d) (r : List Tok) :
    getImmature ps (immatureToks p d ++ r) = .ok (reloadImmature p, r) := by
  obtain ⟨ha, hb, hc, hd⟩ := h
  unfold getImmature immatureToks
  simp only [List.append_assoc]
  rw [bind_ok (getD2_ok _ _)]
  have e1 := getEach_ok getD3 putD3 getD3_ok
  have e2 := getEach_ok getDbl (fun x => [Tok.num x]) getDbl_ok
  have e3 := getEach_ok getD2 putD2 getD2_ok
  have e1' := fun r => e1 r p.baseDirections
  have e2' := fun r => e2 r p.baseIntencities
  have e3' := fun r => e3 r p.baseGrad
  have e4' := fun r => e3 r p.baseGradNorm
  rw [ha] at e1'; rw [hb] at e2'; rw [hc] at e3'; rw [hd] at e4'
  rw [bind_ok (e1' _)]
  have hat : at' p.baseDirections 0 = .ok d := by unfold at'; rw [h0]
  rw [bind_ok (lift_ok hat _), bind_ok (getD3_ok _ _), bind_ok (e2' _), bind_ok (e3' _),
    bind_ok (e4' _)]
  simp only [List.cons_append, List.nil_append]
  rw [bind_ok (getDbl_ok _ _), bind_ok (getDbl_ok _ _), bind_ok (getDbl_ok _ _),
    bind_ok (getDbl_ok _ _), bind_ok (getDbl_ok _ _), bind_ok (getDbl_ok _ _),
    bind_ok (getState_ok _ _), pure_ok, set_zero_head h0]
  rfl

theorem getOptimized_ok (p : Optimized) (r : List Tok) :
    getOptimized (putOptimized p ++ r) = .ok (reloadOptimized p, r) := by
  unfold getOptimized putOptimized
  simp only [List.append_assoc]
  rw [bind_ok (getD2_ok _ _), bind_ok (getD3_ok _ _)]
  simp only [List.cons_append, List.nil_append]
  rw [bind_ok (getDbl_ok _ _), bind_ok (getDbl_ok _ _), bind_ok (getDbl_ok _ _),
    bind_ok (getDbl_ok _ _), pure_ok, Dbl.neg_neg]
  rfl

theorem getPreKeyFrame_ok (f : PreKeyFrame) (r : List Tok) :
    getPreKeyFrame (putPreKeyFrame f ++ r) = .ok (f, r) := by
  unfold getPreKeyFrame putPreKeyFrame
  simp only [List.append_assoc]
  rw [bind_ok (getMotion_ok _ _)]
  simp only [List.cons_append, List.nil_append]
  rw [bind_ok (getInt_ok _ _), bind_ok (getLight_ok _ _), pure_ok]

theorem readFile_ok {get : Read α} {ts r : List Tok} {a : α} (h : get ts = .ok (a, r)) :
    readFile get (some ts) = .ok a := by
  unfold readFile; simp only [h]

/-- What loading makes of a stored keyframe. -/
def reload (kf : KeyFrame) : KeyFrame :=
  { kf with
    immaturePoints := kf.immaturePoints.map reloadImmature
    optimizedPoints := kf.optimizedPoints.map reloadOptimized }

theorem forall₂_map {R : α → β → Prop} {f : α → β} (h : ∀ a, R a (f a)) :
    ∀ l : List α, List.Forall₂ R l (l.map f)
  | [] => .nil
  | a :: l => .cons (h a) (forall₂_map h l)

theorem reload_restored (kf : KeyFrame) : Restored kf (reload kf) :=
  ⟨rfl, rfl, rfl, rfl, forall₂_map reloadImmature_same _, forall₂_map reloadOptimized_same _⟩

theorem mapM_putImmature_ok {ps : Nat} (h1 : 1 ≤ ps) : ∀ l : List Immature,
    (∀ p ∈ l, PatternSized ps p) → ∃ tss, l.mapM (putImmature ps) = .ok tss ∧
      ∀ r, getEach (getImmature ps) l.length (tss.flatten ++ r) = .ok (l.map reloadImmature, r) := by
  intro l
  induction l using List.reverseRecOn with
  | nil => exact fun _ => ⟨[], rfl, fun r => rfl⟩
  | append_singleton l a ih =>
    intro h
    obtain ⟨tss, e, ht⟩ := ih (fun p hp => h p (by simp [hp]))
    have ha := h a (by simp)
    obtain ⟨d, hd, ea⟩ := putImmature_ok h1 ha
    refine ⟨tss ++ [immatureToks a d], ?_, ?_⟩
    · rw [List.mapM_append, e]
      simp only [List.mapM_cons, List.mapM_nil, ea]
      rfl
    · intro r
      rw [List.length_append, List.length_singleton, List.flatten_append, List.append_assoc]
      unfold getEach
      rw [bind_ok (ht _)]
      simp only [List.flatten_cons, List.flatten_nil, List.append_nil]
      rw [bind_ok (getImmature_toks ha hd r), pure_ok]
      simp

theorem getPoints_nat (get : Read α) (n : Nat) : getPoints get (n : Int) = getEach get n := by
  unfold getPoints
  rw [if_neg (by omega), Int.toNat_natCast]

theorem getEach_optimized (r : List Tok) : ∀ l : List Optimized,
    getEach getOptimized l.length (l.flatMap putOptimized ++ r) = .ok (l.map reloadOptimized, r) := by
  intro l
  induction l using List.reverseRecOn generalizing r with
  | nil => rfl
  | append_singleton l a ih =>
    rw [List.length_append, List.length_singleton, List.flatMap_append, List.append_assoc]
    unfold getEach
    rw [bind_ok (ih _)]
    simp only [List.flatMap_cons, List.flatMap_nil, List.append_nil]
    rw [bind_ok (getOptimized_ok a r), pure_ok]
    simp

theorem getEach_nums (r : List Tok) (l : List PreKeyFrame) :
    getEach getInt l.length (l.map (fun f => Tok.int f.globalFrameNum) ++ r) =
      .ok (l.map (·.globalFrameNum), r) := by
  have := getEach_ok getInt (fun n => [Tok.int n]) getInt_ok r (l.map (·.globalFrameNum))
  rw [List.length_map] at this
  rw [← this, List.flatMap_map]
  congr 2
  clear this
  induction l with
  | nil => rfl
  | cons a l ih => simp only [List.map_cons, List.flatMap_cons, ih]; rfl

theorem mapM_tracked {d : Dir} : ∀ l : List PreKeyFrame,
    (∀ f ∈ l, d.pkf f.globalFrameNum = some (putPreKeyFrame f)) →
    (l.map (·.globalFrameNum)).mapM (fun n => readFile getPreKeyFrame (d.pkf n)) = .ok l := by
  intro l
  induction l with
  | nil => exact fun _ => rfl
  | cons f l ih =>
    intro h
    have hf := h f (by simp)
    have e : readFile getPreKeyFrame (some (putPreKeyFrame f)) = .ok f :=
      readFile_ok (r := []) (by have := getPreKeyFrame_ok f []; rwa [List.append_nil] at this)
    simp only [List.map_cons, List.mapM_cons, hf, e, ih (fun g hg => h g (by simp [hg]))]
    rfl

/-- Files of a regular keyframe: they can be written, and reading them gives the keyframe. -/
theorem keyFrameFiles_ok {ps : Nat} (h1 : 1 ≤ ps) {kf : KeyFrame} (h : Regular ps kf) :
    ∃ f, keyFrameFiles ps kf = .ok f ∧
      ∀ d : Dir, (∀ g ∈ kf.trackedFrames, d.pkf g.globalFrameNum = some (putPreKeyFrame g)) →
        loadKeyFrame ps d f = .ok (reload kf) := by
  obtain ⟨tss, e, ht⟩ := mapM_putImmature_ok h1 kf.immaturePoints h.1
  refine ⟨_, by unfold keyFrameFiles; rw [e]; rfl, ?_⟩
  intro d hd
  have ep : readFile getPreKeyFrame (some (putPreKeyFrame kf.preKeyFrame)) = .ok kf.preKeyFrame :=
    readFile_ok (r := [])
      (by have := getPreKeyFrame_ok kf.preKeyFrame []; rwa [List.append_nil] at this)
  have eo : readFile getOwnData (some
      ([.int kf.immaturePoints.length, .int kf.optimizedPoints.length,
          .int kf.preKeyFrame.globalFrameNum] ++
        putMotion kf.thisToWorld ++ putLight kf.lightWorldToThis ++
        [.int kf.trackedFrames.length] ++
        kf.trackedFrames.map (fun f => .int f.globalFrameNum))) =
      .ok (kf.immaturePoints.length, kf.optimizedPoints.length, kf.preKeyFrame.globalFrameNum,
        kf.thisToWorld, kf.lightWorldToThis, kf.trackedFrames.map (·.globalFrameNum)) := by
    refine readFile_ok (r := []) ?_
    unfold getOwnData
    simp only [List.append_assoc, List.cons_append, List.nil_append]
    rw [bind_ok (getInt_ok _ _), bind_ok (getInt_ok _ _), bind_ok (getInt_ok _ _),
      bind_ok (getMotion_ok _ _), bind_ok (getLight_ok _ _), bind_ok (getInt_ok _ _)]
    have := getEach_nums [] kf.trackedFrames
    rw [List.append_nil] at this
    rw [← getPoints_nat] at this
    rw [bind_ok this, pure_ok]
  have ei : readFile (getPoints (getImmature ps) kf.immaturePoints.length) (some tss.flatten) =
      .ok (kf.immaturePoints.map reloadImmature) := by
    refine readFile_ok (r := []) ?_
    rw [getPoints_nat]
    have := ht []
    rwa [List.append_nil] at this
  have eopt : readFile (getPoints getOptimized kf.optimizedPoints.length)
      (some (kf.optimizedPoints.flatMap putOptimized)) =
      .ok (kf.optimizedPoints.map reloadOptimized) := by
    refine readFile_ok (r := []) ?_
    rw [getPoints_nat]
    have := getEach_optimized [] kf.optimizedPoints
    rwa [List.append_nil] at this
  unfold loadKeyFrame
  simp only [ep]
  change (readFile getOwnData (some _) >>= _) = _
  rw [eo]
  change (readFile (getPoints (getImmature ps) (kf.immaturePoints.length : Int)) (some tss.flatten)
    >>= _) = _
  rw [ei]
  change (readFile (getPoints getOptimized (kf.optimizedPoints.length : Int)) (some _) >>= _) = _
  rw [eopt]
  change (if kf.preKeyFrame.globalFrameNum = kf.preKeyFrame.globalFrameNum then _ else _) = _
  rw [if_pos rfl]
  change ((kf.trackedFrames.map (·.globalFrameNum)).mapM
    (fun n => readFile getPreKeyFrame (d.pkf n)) >>= _) = _
  rw [mapM_tracked _ hd]
  rfl

/-! ## Directories -/

theorem setKf_keys (n : Int) (f : KfDir) : ∀ l : List (Int × KfDir),
    ∀ m, m ∈ (setKf n f l).map Prod.fst ↔ m = n ∨ m ∈ l.map Prod.fst
  | [], m => by simp [setKf]
  | (k, g) :: l, m => by
    unfold setKf
    split
    · rename_i h; subst h; simp
    · have := setKf_keys n f l m
      simp only [List.map_cons, List.mem_cons, this]
      tauto

theorem setKf_nodup (n : Int) (f : KfDir) : ∀ l : List (Int × KfDir),
    (l.map Prod.fst).Nodup → ((setKf n f l).map Prod.fst).Nodup
  | [], _ => by simp [setKf]
  | (k, g) :: l, h => by
    unfold setKf
    split
    · simpa using h
    · rename_i hne
      simp only [List.map_cons, List.nodup_cons] at h ⊢
      refine ⟨?_, setKf_nodup n f l h.2⟩
      rw [setKf_keys]
      rintro (e | e)
      · exact hne e
      · exact h.1 e

theorem setKf_mem (n : Int) (f : KfDir) : ∀ l : List (Int × KfDir), (l.map Prod.fst).Nodup →
    ∀ m g, (m, g) ∈ setKf n f l ↔ (m = n ∧ g = f) ∨ (m ≠ n ∧ (m, g) ∈ l)
  | [], _, m, g => by simp [setKf]
  | (k, x) :: l, h, m, g => by
    simp only [List.map_cons, List.nodup_cons] at h
    unfold setKf
    split
    · rename_i e; subst e
      simp only [List.mem_cons, Prod.mk.injEq]
      constructor
      · rintro (h' | h')
        · exact .inl h'
        · refine .inr ⟨fun e => h.1 ?_, .inr h'⟩
          rw [← e]; exact List.mem_map_of_mem h'
      · rintro (h' | ⟨h1, h2 | h2⟩)
        · exact .inl h'
        · exact absurd h2.1 h1
        · exact .inr h2
    · rename_i hne
      simp only [List.mem_cons, Prod.mk.injEq, setKf_mem n f l h.2 m g]
      constructor
      · rintro (⟨h1, h2⟩ | h' | ⟨h1, h2⟩)
        · exact .inr ⟨by rw [h1]; exact hne, .inl ⟨h1, h2⟩⟩
        · exact .inl h'
        · exact .inr ⟨h1, .inr h2⟩
      · rintro (h' | ⟨h1, h2 | h2⟩)
        · exact .inr (.inl h')
        · exact .inl h2
        · exact .inr (.inr ⟨h1, h2⟩)

theorem storeTracked_other : ∀ (l : List PreKeyFrame) (d : Int → Option (List Tok)) (n : Int),
    (∀ f ∈ l, f.globalFrameNum ≠ n) → storeTracked d l n = d n
  | [], _, _, _ => rfl
  | f :: l, d, n, h => by
    unfold storeTracked
    rw [storeTracked_other l _ n (fun g hg => h g (by simp [hg]))]
    have := h f (by simp)
    simp only [if_neg (Ne.symm this)]

theorem storeTracked_own : ∀ (l : List PreKeyFrame) (d : Int → Option (List Tok)),
    (l.map (·.globalFrameNum)).Nodup →
    ∀ f ∈ l, storeTracked d l f.globalFrameNum = some (putPreKeyFrame f)
  | [], _, _, f, h => by simp at h
  | g :: l, d, hn, f, h => by
    simp only [List.map_cons, List.nodup_cons] at hn
    unfold storeTracked
    rcases List.mem_cons.1 h with e | h'
    · subst e
      rw [storeTracked_other l _ _ ?_]
      · simp
      · intro g hg e
        exact hn.1 (by rw [← e]; exact List.mem_map_of_mem hg)
    · exact storeTracked_own l _ hn.2 f h'

theorem lastVersion_snoc (saved : List KeyFrame) (x kf : KeyFrame) :
    LastVersion (saved ++ [x]) kf ↔ kf = x ∨ (LastVersion saved kf ∧ number x ≠ number kf) := by
  constructor
  · rintro ⟨b, a, e, h⟩
    rcases List.eq_nil_or_concat a with rfl | ⟨a', y, rfl⟩
    · left
      have := List.append_inj' e rfl
      simpa using this.2.symm
    · right
      rw [List.concat_eq_append, ← List.cons_append, ← List.append_assoc] at e
      have := List.append_inj' e rfl
      have hx : x = y := by simpa using this.2
      subst hx
      refine ⟨⟨b, a', this.1, fun k hk => h k (by simp [hk])⟩, h x (by simp)⟩
  · rintro (rfl | ⟨⟨b, a, rfl, h⟩, hx⟩)
    · exact ⟨saved, [], rfl, by simp⟩
    · refine ⟨b, a ++ [x], by simp, ?_⟩
      intro k hk
      rcases List.mem_append.1 hk with hk | hk
      · exact h k hk
      · simp at hk; subst hk; exact hx

theorem lastVersion_mem {saved : List KeyFrame} {kf : KeyFrame} (h : LastVersion saved kf) :
    kf ∈ saved := by
  obtain ⟨b, a, rfl, _⟩ := h; simp

/-- Every keyframe saved has a last version. -/
theorem exists_lastVersion (saved : List KeyFrame) : ∀ kf ∈ saved,
    ∃ k, LastVersion saved k ∧ number k = number kf := by
  induction saved using List.reverseRecOn with
  | nil => simp
  | append_singleton l x ih =>
    intro kf hkf
    by_cases e : number x = number kf
    · exact ⟨x, (lastVersion_snoc l x x).2 (.inl rfl), e⟩
    · have hm : kf ∈ l := by
        rcases List.mem_append.1 hkf with h | h
        · exact h
        · simp at h; subst h; exact absurd rfl e
      obtain ⟨k, hk, hn⟩ := ih kf hm
      exact ⟨k, (lastVersion_snoc l x k).2 (.inr ⟨hk, by rw [hn]; exact e⟩), hn⟩

/-- The directory holds exactly the last versions. -/
structure Holds (ps : Nat) (d : Dir) (saved : List KeyFrame) : Prop where
  nodup : (d.kf.map Prod.fst).Nodup
  sound : ∀ n f, (n, f) ∈ d.kf → ∃ kf, LastVersion saved kf ∧ number kf = n ∧
    keyFrameFiles ps kf = .ok f
  complete : ∀ kf, LastVersion saved kf → ∃ f, (number kf, f) ∈ d.kf ∧ keyFrameFiles ps kf = .ok f
  tracked : ∀ kf, LastVersion saved kf → ∀ g ∈ kf.trackedFrames,
    d.pkf g.globalFrameNum = some (putPreKeyFrame g)

theorem save_holds {ps : Nat} (h1 : 1 ≤ ps) (saved : List KeyFrame)
    (hr : ∀ kf ∈ saved, Regular ps kf) (ho : OneBase saved) :
    ∃ d, save ps .empty saved = .ok d ∧ Holds ps d saved := by
  induction saved using List.reverseRecOn with
  | nil =>
    refine ⟨.empty, rfl, ⟨by simp [Dir.empty], by simp [Dir.empty], ?_, ?_⟩⟩
    · rintro kf ⟨b, a, e, _⟩; simp at e
    · rintro kf ⟨b, a, e, _⟩; simp at e
  | append_singleton l x ih =>
    obtain ⟨d, e, H⟩ := ih (fun k hk => hr k (by simp [hk]))
      (fun a ha b hb => ho a (by simp [ha]) b (by simp [hb]))
    have hx := hr x (by simp)
    obtain ⟨f, ef, -⟩ := keyFrameFiles_ok h1 hx
    refine ⟨⟨setKf (number x) f d.kf, storeTracked d.pkf x.trackedFrames⟩, ?_, ?_⟩
    · unfold save at e ⊢
      rw [List.foldlM_append, e]
      change (storeKeyFrame ps d x >>= _) = _
      unfold storeKeyFrame
      rw [ef]; rfl
    · refine ⟨setKf_nodup _ _ _ H.nodup, ?_, ?_, ?_⟩
      · intro n g hg
        rw [setKf_mem _ _ _ H.nodup] at hg
        rcases hg with ⟨rfl, rfl⟩ | ⟨hn, hg⟩
        · exact ⟨x, (lastVersion_snoc _ _ _).2 (.inl rfl), rfl, ef⟩
        · obtain ⟨kf, hk, hn', hf⟩ := H.sound n g hg
          exact ⟨kf, (lastVersion_snoc _ _ _).2 (.inr ⟨hk, by rw [hn']; exact hn.symm⟩), hn', hf⟩
      · intro kf hk
        rcases (lastVersion_snoc _ _ _).1 hk with rfl | ⟨hk, hn⟩
        · exact ⟨f, (setKf_mem _ _ _ H.nodup _ _).2 (.inl ⟨rfl, rfl⟩), ef⟩
        · obtain ⟨g, hg, eg⟩ := H.complete kf hk
          exact ⟨g, (setKf_mem _ _ _ H.nodup _ _).2 (.inr ⟨hn.symm, hg⟩), eg⟩
      · intro kf hk g hg
        rcases (lastVersion_snoc _ _ _).1 hk with rfl | ⟨hk, hn⟩
        · exact storeTracked_own _ _ hx.2 g hg
        · have : ∀ f ∈ x.trackedFrames, f.globalFrameNum ≠ g.globalFrameNum := by
            intro f hf e
            exact hn (ho x (by simp) kf (by simp [lastVersion_mem hk]) f hf g hg e)
          change storeTracked d.pkf x.trackedFrames g.globalFrameNum = _
          rw [storeTracked_other _ _ _ this]
          exact H.tracked kf hk g hg

/-! ## The map of keyframes -/

theorem insertNew_ok (kf : KeyFrame) : ∀ m : List KeyFrame,
    m.Pairwise (fun a b => number a < number b) → (∀ k ∈ m, number k ≠ number kf) →
    ∃ m', insertNew kf m = .ok m' ∧ m'.Pairwise (fun a b => number a < number b) ∧
      ∀ k, k ∈ m' ↔ k = kf ∨ k ∈ m
  | [], _, _ => ⟨[kf], rfl, by simp, by simp⟩
  | x :: m, hp, hn => by
    unfold insertNew
    rw [List.pairwise_cons] at hp
    by_cases h1 : kf.preKeyFrame.globalFrameNum < x.preKeyFrame.globalFrameNum
    · refine ⟨kf :: x :: m, by rw [if_pos h1], ?_, by simp⟩
      rw [List.pairwise_cons, List.pairwise_cons]
      refine ⟨?_, hp⟩
      intro a ha
      rcases List.mem_cons.1 ha with rfl | ha
      · exact h1
      · exact lt_trans h1 (hp.1 a ha)
    · have h2 : ¬ kf.preKeyFrame.globalFrameNum = x.preKeyFrame.globalFrameNum :=
        fun e => hn x (by simp) e.symm
      obtain ⟨m', e, hp', hm'⟩ := insertNew_ok kf m hp.2 (fun k hk => hn k (by simp [hk]))
      refine ⟨x :: m', by rw [if_neg h1, if_neg h2, e]; rfl, ?_, ?_⟩
      · rw [List.pairwise_cons]
        refine ⟨?_, hp'⟩
        intro a ha
        rcases (hm' a).1 ha with rfl | ha
        · change x.preKeyFrame.globalFrameNum < _
          unfold number
          omega
        · exact hp.1 a ha
      · intro k
        simp only [List.mem_cons, hm']
        tauto

theorem load_fold {ps : Nat} {d : Dir} : ∀ (order : List (Int × KfDir)) (m : List KeyFrame),
    m.Pairwise (fun a b => number a < number b) → (order.map Prod.fst).Nodup →
    (∀ k ∈ m, number k ∉ order.map Prod.fst) →
    (∀ e ∈ order, ∃ k, loadKeyFrame ps d e.2 = .ok k ∧ number k = e.1) →
    ∃ m', order.foldlM (fun m f => do
        let kf ← loadKeyFrame ps d f.2
        insertNew kf m) m = .ok m' ∧ m'.Pairwise (fun a b => number a < number b) ∧
      ∀ k, k ∈ m' ↔ k ∈ m ∨ ∃ e ∈ order, loadKeyFrame ps d e.2 = .ok k
  | [], m, hp, _, _, _ => ⟨m, rfl, hp, by simp⟩
  | e :: order, m, hp, hn, hd, hl => by
    obtain ⟨k, ek, hk⟩ := hl e (by simp)
    simp only [List.map_cons, List.nodup_cons] at hn
    obtain ⟨m1, e1, hp1, hm1⟩ := insertNew_ok k m hp (by
      intro a ha h
      exact hd a ha (by rw [h, hk]; simp))
    obtain ⟨m', e', hp', hm'⟩ := load_fold order m1 hp1 hn.2 (by
      intro a ha
      rcases (hm1 a).1 ha with rfl | ha
      · rw [hk]; exact hn.1
      · intro h; exact hd a ha (by simp [h])) (fun x hx => hl x (by simp [hx]))
    refine ⟨m', ?_, hp', ?_⟩
    · rw [List.foldlM_cons, ek]
      change (insertNew k m >>= _) = _
      rw [e1]; exact e'
    · intro a
      rw [hm', hm1]
      constructor
      · rintro ((rfl | h) | ⟨x, hx, h⟩)
        · exact .inr ⟨e, by simp, ek⟩
        · exact .inl h
        · exact .inr ⟨x, by simp [hx], h⟩
      · rintro (h | ⟨x, hx, h⟩)
        · exact .inl (.inr h)
        · rcases List.mem_cons.1 hx with rfl | hx
          · rw [ek] at h; cases h; exact .inl (.inl rfl)
          · exact .inr ⟨x, hx, h⟩

theorem load_holds {ps : Nat} (h1 : 1 ≤ ps) {saved : List KeyFrame}
    (hr : ∀ kf ∈ saved, Regular ps kf) {d : Dir} (H : Holds ps d saved)
    {order : List (Int × KfDir)} (hp : order.Perm d.kf) :
    ∃ m, load ps d order = .ok m ∧ m.Pairwise (fun a b => number a < number b) ∧
      ∀ k, k ∈ m ↔ ∃ kf, LastVersion saved kf ∧ k = reload kf := by
  have hload : ∀ e ∈ order, ∃ kf, LastVersion saved kf ∧ number kf = e.1 ∧
      loadKeyFrame ps d e.2 = .ok (reload kf) := by
    rintro ⟨n, f⟩ he
    obtain ⟨kf, hk, hn, hf⟩ := H.sound n f (hp.mem_iff.1 he)
    obtain ⟨f', hf', hl⟩ := keyFrameFiles_ok h1 (hr kf (lastVersion_mem hk))
    rw [hf] at hf'; cases hf'
    exact ⟨kf, hk, hn, hl d (H.tracked kf hk)⟩
  obtain ⟨m, em, hpm, hm⟩ := load_fold (ps := ps) (d := d) order [] (by simp)
    ((hp.map Prod.fst).nodup_iff.2 H.nodup) (by simp) (by
      intro e he
      obtain ⟨kf, _, hn, hl⟩ := hload e he
      exact ⟨_, hl, hn⟩)
  refine ⟨m, em, hpm, ?_⟩
  intro k
  rw [hm]
  constructor
  · rintro (h | ⟨e, he, h⟩)
    · simp at h
    · obtain ⟨kf, hk, hn, hl⟩ := hload e he
      rw [hl] at h; cases h
      exact ⟨kf, hk, rfl⟩
  · rintro ⟨kf, hk, rfl⟩
    obtain ⟨f, hf, ef⟩ := H.complete kf hk
    obtain ⟨f', hf', hl⟩ := keyFrameFiles_ok h1 (hr kf (lastVersion_mem hk))
    rw [ef] at hf'; cases hf'
    exact .inr ⟨_, hp.mem_iff.2 hf, hl d (H.tracked kf hk)⟩

end Mdso.Snap
