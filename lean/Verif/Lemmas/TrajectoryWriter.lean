import Verif.Model.TrajectoryWriter
import Verif.Lemmas.DsoSystem
import Verif.Spec.TrajectoryWriter
import Mathlib.Data.List.Basic

set_option autoImplicit false

namespace Mdso.Traj
open Mdso.Dso Mdso.FrameSpec

variable {G : Type}

/-! ## Ordered sets and maps -/

theorem setInsert_last {x : Int} : ∀ {l : List Int}, (∀ y ∈ l, y < x) → setInsert x l = l ++ [x]
  | [], _ => rfl
  | y :: ys, h => by
    have h1 := h y (by simp)
    rw [setInsert, if_neg (by omega), if_neg (by omega), setInsert_last (fun z hz => h z (by simp [hz]))]
    rfl

/-- Strictly increasing keys. -/
def Sorted (l : List (Int × G)) : Prop := l.Pairwise (fun a b => a.1 < b.1)

theorem poolInsert_perm {x : Int × G} : ∀ {l : List (Int × G)}, (∀ y ∈ l, y.1 ≠ x.1) →
    (poolInsert x l).Perm (x :: l)
  | [], _ => .refl _
  | y :: ys, h => by
    have h1 := h y (by simp)
    unfold poolInsert
    split
    · exact .refl _
    · rw [if_neg (by omega)]
      exact (List.Perm.cons y (poolInsert_perm (fun z hz => h z (by simp [hz])))).trans
        (List.Perm.swap _ _ _)

theorem poolInsert_mem {x z : Int × G} : ∀ {l : List (Int × G)}, z ∈ poolInsert x l → z = x ∨ z ∈ l
  | [], h => by simp [poolInsert] at h; exact Or.inl h
  | y :: ys, h => by
    unfold poolInsert at h
    split at h
    · simpa using h
    · split at h
      · exact Or.inr h
      · rcases List.mem_cons.1 h with h | h
        · right; simp [h]
        · rcases poolInsert_mem h with h | h
          · exact Or.inl h
          · right; simp [h]

theorem poolInsert_sorted {x : Int × G} : ∀ {l : List (Int × G)}, Sorted l → Sorted (poolInsert x l)
  | [], _ => by simp [poolInsert, Sorted]
  | y :: ys, h => by
    unfold poolInsert
    have h' := h
    unfold Sorted at h'
    rw [List.pairwise_cons] at h'
    split
    · rename_i hlt
      refine List.Pairwise.cons ?_ h
      intro z hz
      rcases List.mem_cons.1 hz with e | hz
      · rw [e]; exact hlt
      · exact Int.lt_trans hlt (h'.1 z hz)
    · split
      · exact h
      · refine List.Pairwise.cons ?_ (poolInsert_sorted h'.2)
        intro z hz
        rcases poolInsert_mem hz with e | hz
        · rw [e]; omega
        · exact h'.1 z hz

theorem foldl_poolInsert_sorted : ∀ (xs l : List (Int × G)), Sorted l →
    Sorted (xs.foldl (fun p x => poolInsert x p) l)
  | [], _, h => h
  | x :: xs, l, h => foldl_poolInsert_sorted xs _ (poolInsert_sorted h)

theorem foldl_poolInsert_perm : ∀ (xs l : List (Int × G)), ((l ++ xs).map (·.1)).Nodup →
    (xs.foldl (fun p x => poolInsert x p) l).Perm (l ++ xs)
  | [], l, _ => by simp
  | x :: xs, l, h => by
    have hx : ∀ y ∈ l, y.1 ≠ x.1 := by
      intro y hy
      rw [List.map_append, List.nodup_append] at h
      exact h.2.2 _ (List.mem_map_of_mem hy) _ (by simp)
    have hp := poolInsert_perm hx
    have hp2 : (poolInsert x l ++ xs).Perm (l ++ x :: xs) :=
      (hp.append_right xs).trans (by
        simpa using (List.perm_middle (a := x) (l₁ := l) (l₂ := xs)).symm)
    have hn : ((poolInsert x l ++ xs).map (·.1)).Nodup := ((hp2.map _).nodup_iff).2 h
    exact (foldl_poolInsert_perm xs _ hn).trans hp2

theorem takeWhile_lt {t : Int} : ∀ {l : List (Int × G)}, ∀ e ∈ l.takeWhile (fun e => decide (e.1 < t)), e.1 < t := by
  intro l
  induction l with
  | nil => intro e he; simp at he
  | cons y ys ih =>
    intro e he
    rw [List.takeWhile_cons] at he
    split at he
    · rename_i hy
      rcases List.mem_cons.1 he with e' | he
      · rw [e']; simpa using hy
      · exact ih e he
    · simp at he

theorem dropWhile_ge {t : Int} : ∀ {l : List (Int × G)}, Sorted l →
    ∀ e ∈ l.dropWhile (fun e => decide (e.1 < t)), t ≤ e.1
  | [], _, e, he => by simp at he
  | y :: ys, h, e, he => by
    unfold Sorted at h
    rw [List.pairwise_cons] at h
    rw [List.dropWhile_cons] at he
    split at he
    · exact dropWhile_ge h.2 e he
    · rename_i hy
      have hy' : t ≤ y.1 := by simpa using hy
      rcases List.mem_cons.1 he with e' | he
      · rw [e']; exact hy'
      · have := h.1 e he; omega

theorem Sorted.takeWhile {l : List (Int × G)} (h : Sorted l) (p : Int × G → Bool) :
    Sorted (l.takeWhile p) := List.Pairwise.sublist (List.takeWhile_sublist p) h

theorem Sorted.dropWhile {l : List (Int × G)} (h : Sorted l) (p : Int × G → Bool) :
    Sorted (l.dropWhile p) := List.Pairwise.sublist (List.dropWhile_sublist p) h

/-! ## One batch -/

/-- The threshold a batch writes up to. -/
def threshold (infInt : Int) (cur : List Int) : Int := match cur with | [] => infInt | m :: _ => m

theorem marginalized_perm [Group G] (infInt : Int) (w : Writer G) (kfs : List (KeyFrame G))
    (h : ((w.pool ++ kfs.flatMap poseEntries).map (·.1)).Nodup) :
    ((w.marginalized infInt kfs).lines ++ (w.marginalized infInt kfs).pool).Perm
      (w.lines ++ w.pool ++ kfs.flatMap poseEntries) := by
  unfold Writer.marginalized
  simp only
  rw [List.append_assoc, List.takeWhile_append_dropWhile, List.append_assoc]
  exact (foldl_poolInsert_perm _ _ h).append_left _

theorem marginalized_pool_sorted [Group G] (infInt : Int) (w : Writer G) (kfs : List (KeyFrame G))
    (h : Sorted w.pool) : Sorted (w.marginalized infInt kfs).pool := by
  unfold Writer.marginalized
  exact (foldl_poolInsert_sorted _ _ h).dropWhile _

theorem marginalized_cur [Group G] (infInt : Int) (w : Writer G) (kfs : List (KeyFrame G)) :
    (w.marginalized infInt kfs).cur = w.cur.filter (fun n => !(kfs.map (·.num)).contains n) := rfl

/-- A batch writes everything below its threshold and keeps the rest; the order is kept if what was
written before is below everything still to be written. -/
theorem marginalized_sorted [Group G] (infInt : Int) (w : Writer G) (kfs : List (KeyFrame G))
    (hnd : ((w.pool ++ kfs.flatMap poseEntries).map (·.1)).Nodup)
    (hp : Sorted w.pool) (hl : Sorted w.lines) {b : Int}
    (hlb : ∀ l ∈ w.lines, l.1 < b) (hpb : ∀ e ∈ w.pool, b ≤ e.1)
    (hkb : ∀ e ∈ kfs.flatMap poseEntries, b ≤ e.1) :
    Sorted (w.marginalized infInt kfs).lines ∧
    (∀ l ∈ (w.marginalized infInt kfs).lines,
      l.1 < max b (threshold infInt (w.marginalized infInt kfs).cur)) ∧
    (∀ e ∈ (w.marginalized infInt kfs).pool,
      threshold infInt (w.marginalized infInt kfs).cur ≤ e.1) := by
  have hs := foldl_poolInsert_sorted (kfs.flatMap poseEntries) w.pool hp
  have hperm := foldl_poolInsert_perm (kfs.flatMap poseEntries) w.pool hnd
  have hge : ∀ e ∈ (kfs.flatMap poseEntries).foldl (fun p x => poolInsert x p) w.pool, b ≤ e.1 := by
    intro e he
    rcases List.mem_append.1 (hperm.subset he) with h | h
    · exact hpb e h
    · exact hkb e h
  refine ⟨?_, ?_, ?_⟩
  · unfold Sorted
    show (w.lines ++ List.takeWhile _ _).Pairwise _
    rw [List.pairwise_append]
    refine ⟨hl, hs.takeWhile _, ?_⟩
    intro x hx y hy
    have h1 := hlb x hx
    have h2 := hge y ((List.takeWhile_sublist _).subset hy)
    omega
  · intro l hl
    rcases List.mem_append.1 hl with h | h
    · have := hlb l h; omega
    · have := takeWhile_lt l h
      exact Int.lt_of_lt_of_le this (Int.le_max_right _ _)
  · intro e he
    exact dropWhile_ge hs e he

/-! ## Bookkeeping of keyframe numbers -/

theorem filter_drop {c : List Int} (hn : c.Nodup) {a M k : Nat} (h1 : M ≤ a) (h2 : a ≤ M + k) :
    (c.drop a).filter (fun n => !((c.drop M).take k).contains n) = c.drop (M + k) := by
  have hsplit : c.drop a = (c.drop a).take (M + k - a) ++ c.drop (M + k) := by
    have : c.drop (M + k) = (c.drop a).drop (M + k - a) := by
      rw [List.drop_drop]; congr 1; omega
    rw [this, List.take_append_drop]
  have hseg : (c.drop M).take k = (c.drop M).take (a - M) ++ (c.drop a).take (M + k - a) := by
    have e1 : c.drop a = (c.drop M).drop (a - M) := by rw [List.drop_drop]; congr 1; omega
    rw [e1, ← List.take_add]; congr 1; omega
  rw [hsplit, List.filter_append]
  have e1 : ((c.drop a).take (M + k - a)).filter (fun n => !((c.drop M).take k).contains n) = [] := by
    rw [List.filter_eq_nil_iff]
    intro x hx
    have : x ∈ (c.drop M).take k := by rw [hseg]; exact List.mem_append_right _ hx
    simp [this]
  have e2 : (c.drop (M + k)).filter (fun n => !((c.drop M).take k).contains n) = c.drop (M + k) := by
    rw [List.filter_eq_self]
    intro x hx
    have hnd : (c.drop M).Nodup := hn.sublist (List.drop_sublist _ _)
    rw [← List.take_append_drop k (c.drop M), List.nodup_append, List.drop_drop] at hnd
    have : x ∉ (c.drop M).take k := fun h => hnd.2.2 x h x hx rfl
    simpa using this
  rw [e1, e2, List.nil_append]

theorem poseEntries_fst [Group G] (kfs : List (KeyFrame G)) :
    (kfs.flatMap poseEntries).map (·.1) = framesOf kfs := by
  unfold framesOf
  rw [List.map_flatMap]
  congr 1
  funext kf
  simp [poseEntries, Function.comp_def]

theorem writerOf_append [Group G] (infInt : Int) (a b : List (Event G)) :
    writerOf infInt (a ++ b) = b.foldl (Writer.step infInt) (writerOf infInt a) := by
  unfold writerOf; rw [List.foldl_append]

/-- Announced keyframes that have not been marginalized yet. -/
def liveAnnounced (set : Settings) (c : List Int) (M : Nat) : List Int :=
  if set.trackFromLastKf then c.drop (max 1 M) else c.dropLast.drop M

/-- Modes in which the writer always knows the oldest live keyframe. -/
def Ordered (set : Settings) : Prop := set.trackFromLastKf = true ∨ 3 ≤ set.maxKeyFrames

/-- The writer's state between `addFrame` calls. -/
structure WInv [Group G] (infInt : Int) (set : Settings) (s : State G) (w : Writer G) : Prop where
  cur : w.cur = liveAnnounced set ((createdOf s).map (·.num)) (marginalizedOf s.log).length
  perm : (w.lines ++ w.pool).Perm ((marginalizedOf s.log).flatMap poseEntries)
  pool : Sorted w.pool
  order : Ordered set → Sorted w.lines ∧ ∃ b, (∀ l ∈ w.lines, l.1 < b) ∧ (∀ e ∈ w.pool, b ≤ e.1) ∧
    ∀ kf ∈ s.keyFrames, b ≤ kf.num
  exact : set.trackFromLastKf = true → w.pool = []

theorem created_num {set : Settings} [Group G] {s : State G} {ns : List Int} (hi : Inv set s ns) :
    (createdOf s).map (·.num) = (book (policyOf set) ns).keyFrames := by
  rw [← hi.book]; simp [createdOf, Book.keyFrames, entry, Function.comp_def]

theorem created_frames {set : Settings} [Group G] {s : State G} {ns : List Int} (hi : Inv set s ns) :
    framesOf (createdOf s) = (book (policyOf set) ns).frames := by
  rw [← hi.book, framesOf_eq]; rfl

theorem framesOf_append (a b : List (KeyFrame G)) : framesOf (a ++ b) = framesOf a ++ framesOf b := by
  simp [framesOf]

theorem frames_nodup {set : Settings} [Group G] {s : State G} {ns : List Int} (hi : Inv set s ns) :
    (framesOf (createdOf s)).Nodup := by
  rw [created_frames hi]
  have hnd : ns.Nodup := hi.sorted.imp (fun h => by omega)
  obtain ⟨l, hp, hs⟩ := frames_subperm (p := policyOf set) (ns := ns)
  exact hp.nodup_iff.1 (hs.nodup hnd)

/-- Entries of a keyframe are not older than it. -/
theorem entries_ge {set : Settings} [Group G] {s : State G} {ns : List Int} (hi : Inv set s ns)
    {kf : KeyFrame G} (hk : kf ∈ createdOf s) : ∀ e ∈ poseEntries kf, kf.num ≤ e.1 := by
  intro e he
  have hmem : entry kf ∈ book (policyOf set) ns := by
    rw [← hi.book]; exact List.mem_map_of_mem hk
  unfold poseEntries at he
  rcases List.mem_cons.1 he with h | h
  · rw [h]; exact Int.le_refl _
  · obtain ⟨f, hf, rfl⟩ := List.mem_map.1 h
    exact Int.le_of_lt (tracked_gt hi.sorted _ hmem f.num (List.mem_map_of_mem hf))

/-- When tracking from the last keyframe, the frames of a keyframe are older than all later keyframes. -/
theorem entries_lt {set : Settings} [Group G] {s : State G} {ns : List Int} (hi : Inv set s ns)
    (hf : set.trackFromLastKf = true) {a b : List (KeyFrame G)} (hab : createdOf s = a ++ b) :
    ∀ e ∈ a.flatMap poseEntries, ∀ kf ∈ b, e.1 < kf.num := by
  intro e he kf hk
  have hs := frames_sorted (p := policyOf set) (by exact hf) hi.sorted
  rw [← created_frames hi, hab, framesOf_append, List.pairwise_append] at hs
  refine hs.2.2 e.1 ?_ kf.num ?_
  · rw [← poseEntries_fst]; exact List.mem_map_of_mem he
  · simp only [framesOf, List.mem_flatMap]; exact ⟨kf, hk, by simp⟩

theorem winv_create [Group G] (infInt : Int) {set : Settings} {s : State G} (h : create set = .ok s) :
    WInv infInt set s (writerOf infInt s.log) := by
  unfold create at h
  split at h <;> cases h
  constructor
  · simp [writerOf, Writer.init, liveAnnounced, createdOf, marginalizedOf]
  · simp [writerOf, Writer.init, marginalizedOf]
  · simp [writerOf, Writer.init, Sorted]
  · intro _; simp [writerOf, Writer.init, Sorted]
  · intro _; rfl

theorem track_keyFrames (p : Policy) (b : Book) (n : Int) :
    (track p b n).keyFrames = b.keyFrames ∨ (track p b n).keyFrames = b.keyFrames ++ [n] := by
  unfold track
  split
  · exact Or.inl rfl
  · split
    · split
      · right; simp [Book.keyFrames]
      · exact Or.inl rfl
    · left; exact attach_keyFrames _ _ _

theorem window_nums {s : State G} : s.keyFrames.map (·.num)
    = ((createdOf s).map (·.num)).drop (marginalizedOf s.log).length := by
  unfold createdOf; simp

/-- The lists of keyframe numbers before and after one call, in terms of the log. -/
theorem created_step [Group G] {set : Settings} {s s' : State G} {ns : List Int} {n : Int}
    (hi : Inv set s ns) (hi' : Inv set s' (ns ++ [n])) (hl : (policyOf set).skip + 2 ≤ ns.length) :
    (createdOf s').map (·.num) = (createdOf s).map (·.num) ∨
    (createdOf s').map (·.num) = (createdOf s).map (·.num) ++ [n] := by
  rw [created_num hi, created_num hi', book_snoc hl]
  exact track_keyFrames _ _ _

theorem announced_length [Group G] {set : Settings} {s : State G} {ns : List Int}
    (hi : Inv set s ns) : (announcedOf s.log).length = ((createdOf s).map (·.num)).length - 1 := by
  rw [hi.announced, created_num hi]
  split <;> simp

/-- Facts after the optional marginalization of one call and before the announcement. -/
structure WMid [Group G] (set : Settings) (c : List Int) (H : List (KeyFrame G)) (w : Writer G) :
    Prop where
  cur : w.cur = liveAnnounced set c H.length
  perm : (w.lines ++ w.pool).Perm (H.flatMap poseEntries)
  pool : Sorted w.pool
  order : Ordered set → Sorted w.lines ∧ ∃ b, (∀ l ∈ w.lines, l.1 < b) ∧ (∀ e ∈ w.pool, b ≤ e.1) ∧
    ∀ k ∈ c.drop H.length, b ≤ k
  exact : set.trackFromLastKf = true → w.pool = []

theorem WInv.mid [Group G] {infInt : Int} {set : Settings} {s : State G} {w : Writer G}
    (h : WInv infInt set s w) :
    WMid set ((createdOf s).map (·.num)) (marginalizedOf s.log) w := by
  refine ⟨h.cur, h.perm, h.pool, ?_, h.exact⟩
  intro ho
  obtain ⟨h1, b, h2, h3, h4⟩ := h.order ho
  refine ⟨h1, b, h2, h3, ?_⟩
  rw [← window_nums]
  intro k hk
  obtain ⟨kf, hkf, rfl⟩ := List.mem_map.1 hk
  exact h4 kf hkf

theorem WMid.inv [Group G] {infInt : Int} {set : Settings} {s : State G} {w : Writer G}
    (h : WMid set ((createdOf s).map (·.num)) (marginalizedOf s.log) w) :
    WInv infInt set s w := by
  refine ⟨h.cur, h.perm, h.pool, ?_, h.exact⟩
  intro ho
  obtain ⟨h1, b, h2, h3, h4⟩ := h.order ho
  refine ⟨h1, b, h2, h3, ?_⟩
  rw [← window_nums] at h4
  intro kf hkf
  exact h4 _ (List.mem_map_of_mem hkf)

/-- A non-empty batch that leaves at least one (in the ordered modes: known) live keyframe. -/
theorem WMid.marg [Group G] {infInt : Int} {set : Settings} {c : List Int} {H : List (KeyFrame G)}
    {w : Writer G} (h : WMid set c H w) {kfs : List (KeyFrame G)} (hne : kfs ≠ [])
    (hc : c.Pairwise (· < ·)) (hnums : kfs.map (·.num) = (c.drop H.length).take kfs.length)
    (hlen : H.length + kfs.length + 1 ≤ c.length)
    (hlen3 : set.trackFromLastKf = true ∨ (3 ≤ set.maxKeyFrames → H.length + kfs.length + 2 ≤ c.length))
    (hnd : (framesOf (H ++ kfs)).Nodup) (hge : ∀ kf ∈ kfs, ∀ e ∈ poseEntries kf, kf.num ≤ e.1)
    (hlt : set.trackFromLastKf = true → ∀ e ∈ (H ++ kfs).flatMap poseEntries,
      ∀ k ∈ c.drop (H.length + kfs.length), e.1 < k) :
    WMid set c (H ++ kfs) (w.marginalized infInt kfs) := by
  have hk1 : 1 ≤ kfs.length := by
    cases kfs with
    | nil => exact absurd rfl hne
    | cons a l => simp
  have hnc : c.Nodup := hc.imp (fun h => by omega)
  have hnd2 : ((w.pool ++ kfs.flatMap poseEntries).map (·.1)).Nodup := by
    have h1 : ((w.lines ++ w.pool ++ kfs.flatMap poseEntries).map (·.1)).Nodup := by
      have : (w.lines ++ w.pool ++ kfs.flatMap poseEntries).Perm ((H ++ kfs).flatMap poseEntries) := by
        rw [List.flatMap_append]; exact h.perm.append_right _
      rw [(this.map _).nodup_iff, poseEntries_fst]
      exact hnd
    refine h1.sublist (List.Sublist.map _ ?_)
    rw [List.append_assoc]
    exact List.sublist_append_right _ _
  have hcur : (w.marginalized infInt kfs).cur = liveAnnounced set c (H ++ kfs).length := by
    rw [marginalized_cur, h.cur, hnums, List.length_append]
    unfold liveAnnounced
    split
    · rw [filter_drop hnc (Nat.le_max_right _ _) (by omega)]
      congr 1; omega
    · have : (c.drop H.length).take kfs.length = (c.dropLast.drop H.length).take kfs.length := by
        rw [List.dropLast_eq_take, List.drop_take, List.take_take]
        congr 1; omega
      rw [this, filter_drop (hnc.sublist (List.dropLast_sublist _)) (Nat.le_refl _) (by omega)]
  have hperm : ((w.marginalized infInt kfs).lines ++ (w.marginalized infInt kfs).pool).Perm
      ((H ++ kfs).flatMap poseEntries) := by
    rw [List.flatMap_append]
    exact (marginalized_perm infInt w kfs hnd2).trans (h.perm.append_right _)
  -- the threshold in the ordered modes
  have hthr : Ordered set → ∃ t rest, c.drop (H.length + kfs.length) = t :: rest ∧
      threshold infInt (w.marginalized infInt kfs).cur = t := by
    intro ho
    have hlt1 : H.length + kfs.length < c.length := by omega
    refine ⟨c[H.length + kfs.length], c.drop (H.length + kfs.length + 1),
      List.drop_eq_getElem_cons hlt1, ?_⟩
    rw [hcur, List.length_append]
    unfold liveAnnounced
    split
    · rw [show max 1 (H.length + kfs.length) = H.length + kfs.length by omega,
        List.drop_eq_getElem_cons hlt1]
      rfl
    · rename_i hf
      have h3 : H.length + kfs.length + 2 ≤ c.length := by
        rcases hlen3 with h' | h'
        · exact absurd h' hf
        · rcases ho with h2 | h2
          · exact absurd h2 hf
          · exact h' h2
      rw [List.drop_eq_getElem_cons (by simp; omega)]
      simp [threshold]
  have hdrop : ∀ t rest, c.drop (H.length + kfs.length) = t :: rest →
      t ∈ c.drop H.length ∧ ∀ k ∈ c.drop (H.length + kfs.length), t ≤ k := by
    intro t rest e
    constructor
    · have : t ∈ (c.drop H.length).drop kfs.length := by rw [List.drop_drop, e]; simp
      exact List.mem_of_mem_drop this
    · have hs := hc.sublist (List.drop_sublist (H.length + kfs.length) c)
      rw [e] at hs ⊢
      rw [List.pairwise_cons] at hs
      intro k hk
      rcases List.mem_cons.1 hk with h | h
      · omega
      · exact Int.le_of_lt (hs.1 k h)
  have hord : Ordered set → Sorted (w.marginalized infInt kfs).lines ∧ ∃ t rest,
      c.drop (H.length + kfs.length) = t :: rest ∧
      (∀ l ∈ (w.marginalized infInt kfs).lines, l.1 < t) ∧
      (∀ e ∈ (w.marginalized infInt kfs).pool, t ≤ e.1) := by
    intro ho
    obtain ⟨hl, b, hb1, hb2, hb3⟩ := h.order ho
    obtain ⟨t, rest, e, ht⟩ := hthr ho
    have hkb : ∀ e ∈ kfs.flatMap poseEntries, b ≤ e.1 := by
      intro e he
      obtain ⟨kf, hkf, hmem⟩ := List.mem_flatMap.1 he
      have h1 := hge kf hkf e hmem
      have h2 : b ≤ kf.num := by
        refine hb3 _ (List.mem_of_mem_take (i := kfs.length) ?_)
        rw [← hnums]; exact List.mem_map_of_mem hkf
      omega
    obtain ⟨g1, g2, g3⟩ := marginalized_sorted infInt w kfs hnd2 h.pool hl hb1 hb2 hkb
    have hbt : b ≤ t := hb3 _ (hdrop t rest e).1
    refine ⟨g1, t, rest, e, ?_, ?_⟩
    · intro l hl
      have := g2 l hl
      rw [ht] at this
      omega
    · intro x hx
      have := g3 x hx
      rwa [ht] at this
  refine ⟨hcur, hperm, marginalized_pool_sorted _ _ _ h.pool, ?_, ?_⟩
  · intro ho
    obtain ⟨g1, t, rest, e, g2, g3⟩ := hord ho
    refine ⟨g1, t, g2, g3, ?_⟩
    rw [List.length_append]
    exact (hdrop t rest e).2
  · intro hf
    obtain ⟨_, t, rest, e, _, g3⟩ := hord (Or.inl hf)
    apply List.eq_nil_iff_forall_not_mem.2
    intro x hx
    have h1 := g3 x hx
    have h2 := hlt hf x (hperm.subset (List.mem_append_right _ hx)) t (by rw [e]; simp)
    omega

/-- The announcement at the end of a call. -/
theorem WMid.announce [Group G] {infInt : Int} {set : Settings} {c : List Int} {H : List (KeyFrame G)}
    {w : Writer G} (h : WMid set c H w) {n : Int} {base : KeyFrame G}
    (hc : (c ++ [n]).Pairwise (· < ·)) (h2 : 2 ≤ c.length) (hlen : H.length + 1 ≤ c.length)
    (hb : if set.trackFromLastKf then base.num = n else c.getLast? = some base.num) :
    WMid set (c ++ [n]) H (w.step infInt (.newKeyFrame base)) := by
  rw [List.pairwise_append] at hc
  have hcn : ∀ x ∈ c, x < n := fun x hx => hc.2.2 x hx n (by simp)
  refine ⟨?_, h.perm, h.pool, ?_, h.exact⟩
  · show setInsert base.num w.cur = _
    rw [h.cur]
    unfold liveAnnounced
    split
    · rename_i hf
      rw [if_pos hf] at hb
      rw [hb, setInsert_last (fun y hy => hcn y (List.mem_of_mem_drop hy)),
        List.drop_append_of_le_length (by omega)]
    · rename_i hf
      rw [if_neg hf] at hb
      have hsplit := List.dropLast_append_getLast? _ hb
      rw [setInsert_last]
      · rw [List.dropLast_concat]
        have : c.drop H.length = (c.dropLast ++ [base.num]).drop H.length := by rw [hsplit]
        rw [this, List.drop_append_of_le_length (by simp; omega)]
      · intro y hy
        have hs := hc.1
        rw [← hsplit, List.pairwise_append] at hs
        exact hs.2.2 y (List.mem_of_mem_drop hy) _ (by simp)
  · intro ho
    obtain ⟨h1, b, hb1, hb2, hb3⟩ := h.order ho
    refine ⟨h1, b, hb1, hb2, ?_⟩
    intro k hk
    rw [List.drop_append_of_le_length (by omega)] at hk
    rcases List.mem_append.1 hk with h | h
    · exact hb3 k h
    · have hne : c.drop H.length ≠ [] := by
        intro e; have := List.drop_eq_nil_iff.1 e; omega
      obtain ⟨a, l, e⟩ := List.exists_cons_of_ne_nil hne
      have ha : a ∈ c.drop H.length := by rw [e]; simp
      have h1 := hb3 a ha
      have h2 := hcn a (List.mem_of_mem_drop ha)
      simp at h; omega

/-- One `addFrame` call of an initialized system. -/
theorem winv_track [Group G] {infInt : Int} {set : Settings} (hv : Valid set) {s s' : State G}
    {ns : List Int} {n : Int} (hi : Inv set s ns) (hi' : Inv set s' (ns ++ [n]))
    (hl : (policyOf set).skip + 2 ≤ ns.length) {evs : List (Event G)}
    (hlog : s'.log = s.log ++ .newFrame n :: evs)
    (hev : evs = [] ∨ ∃ marg base, evs = (if marg = [] then [] else [.marginalized marg])
        ++ [.newKeyFrame base])
    (hw : WInv infInt set s (writerOf infInt s.log)) :
    WInv infInt set s' (writerOf infInt s'.log) := by
  have hlen' := announced_length hi'
  have hlen := announced_length hi
  have hc2 : 2 ≤ ((createdOf s).map (·.num)).length := by
    have := book_length (p := policyOf set) hl
    rw [created_num hi]; simpa [Book.keyFrames] using this
  have hcs := created_step hi hi' hl
  apply WMid.inv
  rcases hev with he | ⟨marg, base, he⟩
  · subst he
    have hM : marginalizedOf s'.log = marginalizedOf s.log := by rw [hlog]; simp [marginalizedOf]
    have hA : announcedOf s'.log = announcedOf s.log := by rw [hlog]; simp [announcedOf]
    have hc : (createdOf s').map (·.num) = (createdOf s).map (·.num) := by
      rcases hcs with h | h
      · exact h
      · rw [hA, h, List.length_append] at hlen'
        simp only [List.length_singleton] at hlen'
        omega
    rw [hc, hM, hlog, writerOf_append]
    exact hw.mid
  · have hA : announcedOf s'.log = announcedOf s.log ++ [base.num] := by
      rw [hlog, he]
      split <;> simp [announcedOf]
    have hM : marginalizedOf s'.log = marginalizedOf s.log ++ marg := by
      rw [hlog, he]
      split
      · rename_i h; simp [marginalizedOf, h]
      · simp [marginalizedOf]
    have hc : (createdOf s').map (·.num) = (createdOf s).map (·.num) ++ [n] := by
      rcases hcs with h | h
      · rw [hA, h, List.length_append] at hlen'
        simp only [List.length_singleton] at hlen'
        omega
      · exact h
    have hcsort : ((createdOf s).map (·.num) ++ [n]).Pairwise (· < ·) := by
      rw [← hc, created_num hi']; exact keyFrames_sorted hi'.sorted
    -- how many keyframes are marginalized
    have hw' := hi'.window
    have hw0 := hi.window
    have hv1 := hv.window
    have hbl : (book (policyOf set) ns).length = ((createdOf s).map (·.num)).length := by
      rw [created_num hi]; simp [Book.keyFrames]
    have hbl' : (book (policyOf set) (ns ++ [n])).length = ((createdOf s).map (·.num)).length + 1 := by
      have : (book (policyOf set) (ns ++ [n])).length = ((createdOf s').map (·.num)).length := by
        rw [created_num hi']; simp [Book.keyFrames]
      rw [this, hc]; simp
    have hcl : ((createdOf s).map (·.num)).length = (marginalizedOf s.log).length + s.keyFrames.length := by
      simp [createdOf]
    have hcl' : ((createdOf s).map (·.num)).length + 1
        = (marginalizedOf s.log).length + marg.length + s'.keyFrames.length := by
      have : ((createdOf s').map (·.num)).length = (marginalizedOf s'.log).length + s'.keyFrames.length := by
        simp [createdOf]
      rw [hc, hM] at this
      simpa using this
    have hbase : if set.trackFromLastKf then base.num = n
        else ((createdOf s).map (·.num)).getLast? = some base.num := by
      have h1 := hi'.announced
      rw [hA, hi.announced, ← created_num hi, ← created_num hi', hc] at h1
      cases hf : set.trackFromLastKf with
      | true =>
        rw [hf] at h1
        simp only [if_true] at h1 ⊢
        rw [List.drop_append_of_le_length (by omega)] at h1
        have := List.append_cancel_left h1
        simpa using this
      | false =>
        rw [hf] at h1
        simp only [Bool.false_eq_true, if_false, List.dropLast_concat] at h1 ⊢
        rw [← h1]; simp
    have hcr' : createdOf s' = (marginalizedOf s.log ++ marg) ++ s'.keyFrames := by
      unfold createdOf; rw [hM]
    rw [hc, hM]
    have hmid : WMid set ((createdOf s).map (·.num)) (marginalizedOf s.log ++ marg)
        (writerOf infInt (s.log ++ .newFrame n :: (if marg = [] then [] else [.marginalized marg]))) := by
      by_cases hm : marg = []
      · rw [if_pos hm, writerOf_append, hm, List.append_nil]
        exact hw.mid
      · rw [if_neg hm, writerOf_append]
        have hmnums : marg.map (·.num)
            = (((createdOf s).map (·.num)).drop (marginalizedOf s.log).length).take marg.length := by
          have h1 : (createdOf s').map (·.num) = (marginalizedOf s.log).map (·.num) ++
              (marg.map (·.num) ++ s'.keyFrames.map (·.num)) := by rw [hcr']; simp
          have h2 : (((createdOf s).map (·.num)) ++ [n]).drop (marginalizedOf s.log).length
              = marg.map (·.num) ++ s'.keyFrames.map (·.num) := by
            rw [← hc, h1]
            rw [List.drop_append_of_le_length (by simp)]
            simp
          rw [List.drop_append_of_le_length (by omega)] at h2
          have h3 := congrArg (List.take marg.length) h2
          rw [List.take_append_of_le_length (by rw [List.length_drop]; omega),
            List.take_append_of_le_length (by simp)] at h3
          rw [h3, List.take_of_length_le (by simp)]
        refine WMid.marg (c := (createdOf s).map (·.num)) hw.mid hm (List.pairwise_append.1 hcsort).1 hmnums
          (by omega) ?_ ?_ ?_ ?_
        · right; intro h3; omega
        · have := frames_nodup hi'
          rw [hcr', framesOf_append, List.nodup_append] at this
          exact this.1
        · intro kf hkf
          refine entries_ge hi' ?_
          rw [hcr']
          exact List.mem_append_left _ (List.mem_append_right _ hkf)
        · intro hf e he k hk
          have h1 := entries_lt hi' hf hcr' e he
          have h2 : k ∈ s'.keyFrames.map (·.num) := by
            rw [window_nums, hc, hM, List.length_append, List.drop_append_of_le_length (by omega)]
            exact List.mem_append_left _ hk
          obtain ⟨kf, hkf, rfl⟩ := List.mem_map.1 h2
          exact h1 kf hkf
    have hfin := WMid.announce (infInt := infInt) hmid hcsort hc2 (by rw [List.length_append]; omega) hbase
    have : s'.log = (s.log ++ .newFrame n :: (if marg = [] then [] else [.marginalized marg]))
        ++ [.newKeyFrame base] := by rw [hlog, he]; simp
    rw [this, writerOf_append]
    exact hfin

/-- The initializing call. -/
theorem winv_init [Group G] {infInt : Int} {set : Settings} {s' : State G} {ns : List Int}
    (hi' : Inv set s' ns) {k0 k1 base : KeyFrame G}
    (hlog : s'.log = [.initialized [k0, k1], .newKeyFrame base]) (hk : s'.keyFrames = [k0, k1]) :
    WInv infInt set s' (writerOf infInt s'.log) := by
  have hM : marginalizedOf s'.log = [] := by rw [hlog]; simp [marginalizedOf]
  have hA : announcedOf s'.log = [base.num] := by rw [hlog]; simp [announcedOf]
  have hc : (createdOf s').map (·.num) = [k0.num, k1.num] := by
    unfold createdOf; rw [hM, hk]; rfl
  have hsort := keyFrames_sorted (p := policyOf set) hi'.sorted
  rw [← created_num hi', hc] at hsort
  have hlt : k0.num < k1.num := by simpa using hsort
  have hann := hi'.announced
  rw [hA, ← created_num hi', hc] at hann
  have hw : writerOf infInt s'.log = { cur := [base.num], pool := [], lines := [] } := by
    rw [hlog]; rfl
  rw [hw]
  refine ⟨?_, ?_, ?_, ?_, ?_⟩
  · rw [hc, hM]
    unfold liveAnnounced
    show [base.num] = _
    rw [hann]
    split <;> rfl
  · rw [hM]; exact List.Perm.refl _
  · exact List.Pairwise.nil
  · intro _
    refine ⟨List.Pairwise.nil, k0.num, by simp, by simp, ?_⟩
    rw [hk]
    intro kf hkf
    simp only [List.mem_cons, List.not_mem_nil, or_false] at hkf
    rcases hkf with h | h
    · rw [h]; exact Int.le_refl _
    · rw [h]; exact Int.le_of_lt hlt
  · intro _; rfl

theorem winv_skip [Group G] {infInt : Int} {set : Settings} {s' : State G} {ns : List Int}
    (hi' : Inv set s' ns) (hlog : s'.log = []) (hb : book (policyOf set) ns = []) :
    WInv infInt set s' (writerOf infInt s'.log) := by
  have hc := created_num hi'
  rw [hb] at hc
  have hcr : createdOf s' = [] := by
    have : ((createdOf s').map (·.num)) = [] := hc
    simpa using this
  have hk : s'.keyFrames = [] := by
    unfold createdOf at hcr
    exact (List.append_eq_nil_iff.1 hcr).2
  rw [hlog]
  refine ⟨?_, ?_, ?_, ?_, ?_⟩
  · rw [hcr, hlog]; simp [writerOf, Writer.init, liveAnnounced]
  · rw [hlog]; simp [writerOf, Writer.init, marginalizedOf]
  · exact List.Pairwise.nil
  · intro _
    refine ⟨List.Pairwise.nil, 0, by simp [writerOf, Writer.init], by simp [writerOf, Writer.init], ?_⟩
    rw [hk]; simp
  · intro _; rfl

theorem run_winv [Group G] {infInt : Int} {set : Settings} (hv : Valid set) :
    ∀ (xs : List (FrameIn G)) {s : State G} {ns : List Int}, Inv set s ns →
    WInv infInt set s (writerOf infInt s.log) → (ns ++ xs.map (·.num)).Pairwise (· < ·) →
    (∀ x ∈ xs, 0 < x.num ∧ x.num < intMax) →
    ∃ s' rs, run set s xs = .ok (s', rs) ∧ Inv set s' (ns ++ xs.map (·.num)) ∧
      WInv infInt set s' (writerOf infInt s'.log) := by
  intro xs
  induction xs with
  | nil => intro s ns hi hw _ _; exact ⟨s, [], rfl, by simpa using hi, hw⟩
  | cons x xs ih =>
    intro s ns hi hw hp hb
    have hacc : Acceptable ns x.num := by
      refine ⟨(hb x (by simp)).1, fun m hm => ?_⟩
      exact (List.pairwise_append.1 hp).2.2 m hm x.num (by simp)
    have hm := (hb x (by simp)).2
    have hp' : ((ns ++ [x.num]) ++ xs.map (·.num)).Pairwise (· < ·) := by simpa using hp
    have hb' : ∀ x ∈ xs, 0 < x.num ∧ x.num < intMax := fun y hy => hb y (by simp [hy])
    have step : ∃ s1 o, addFrame set s x = .ok (s1, o) ∧ Inv set s1 (ns ++ [x.num]) ∧
        WInv infInt set s1 (writerOf infInt s1.log) := by
      by_cases h1 : ns.length < (policyOf set).skip + 1
      · obtain ⟨s1, e, hi1, hlog⟩ := step_skip hi hacc hm h1
        exact ⟨s1, none, e, hi1, winv_skip hi1 hlog (book_lt (by simp; omega))⟩
      · by_cases h2 : ns.length = (policyOf set).skip + 1
        · obtain ⟨s1, _, _, _, e, hi1, hlog, hk⟩ := step_init hv hi hacc hm h2
          exact ⟨s1, _, e, hi1, winv_init hi1 hlog hk⟩
        · obtain ⟨s1, evs, e, hi1, hlog, hev⟩ := step_track hv hi hacc hm (by omega)
          exact ⟨s1, _, e, hi1, winv_track hv hi hi1 (by omega) hlog hev hw⟩
    obtain ⟨s1, o, e1, hi1, hw1⟩ := step
    obtain ⟨s2, os, e2, hi2, hw2⟩ := ih hi1 hw1 hp' hb'
    refine ⟨s2, o :: os, ?_, by simpa using hi2, hw2⟩
    unfold run; rw [e1]; simp only; rw [e2]

theorem run_create_w [Group G] (infInt : Int) {set : Settings} (hv : Valid set) {s0 : State G}
    (hc : create set = .ok s0) {xs : List (FrameIn G)} (hl : Legal (xs.map (·.num))) :
    ∃ s rs, run set s0 xs = .ok (s, rs) ∧ Inv set s (xs.map (·.num)) ∧
      WInv infInt set s (writerOf infInt s.log) ∧ destructedOf s.log = [] := by
  obtain ⟨s, rs, e, hi, hw⟩ := run_winv (infInt := infInt) hv xs (inv_create hc) (winv_create infInt hc)
    (by simpa using hl.1) (by simpa using hl.2)
  refine ⟨s, rs, e, by simpa using hi, hw, ?_⟩
  refine run_no_destructed (r := (s, rs)) xs e ?_
  unfold create at hc; split at hc <;> cases hc; rfl

/-! ## The destructor -/

theorem destroy_writer [Group G] (infInt : Int) (s : State G) :
    writerOf infInt (destroy s) = (writerOf infInt s.log).marginalized infInt s.keyFrames := by
  unfold destroy; rw [writerOf_append]; rfl

theorem destroy_nodup [Group G] {infInt : Int} {set : Settings} {s : State G} {ns : List Int}
    (hi : Inv set s ns) {w : Writer G} (hw : WInv infInt set s w) :
    ((w.pool ++ s.keyFrames.flatMap poseEntries).map (·.1)).Nodup := by
  have h1 : ((w.lines ++ w.pool ++ s.keyFrames.flatMap poseEntries).map (·.1)).Nodup := by
    have : (w.lines ++ w.pool ++ s.keyFrames.flatMap poseEntries).Perm
        ((createdOf s).flatMap poseEntries) := by
      unfold createdOf; rw [List.flatMap_append]; exact hw.perm.append_right _
    rw [(this.map _).nodup_iff, poseEntries_fst]
    exact frames_nodup hi
  refine h1.sublist (List.Sublist.map _ ?_)
  rw [List.append_assoc]
  exact List.sublist_append_right _ _

theorem destroy_cur [Group G] {infInt : Int} {set : Settings} {s : State G} {ns : List Int}
    (_hi : Inv set s ns) {w : Writer G} (hw : WInv infInt set s w) :
    (w.marginalized infInt s.keyFrames).cur = [] := by
  rw [marginalized_cur, hw.cur, List.filter_eq_nil_iff]
  intro x hx
  have : x ∈ s.keyFrames.map (·.num) := by
    rw [window_nums]
    unfold liveAnnounced at hx
    split at hx
    · have e : List.drop (max 1 (marginalizedOf s.log).length) ((createdOf s).map (·.num))
          = (((createdOf s).map (·.num)).drop (marginalizedOf s.log).length).drop
            (max 1 (marginalizedOf s.log).length - (marginalizedOf s.log).length) := by
        rw [List.drop_drop]; congr 1; omega
      rw [e] at hx
      exact List.mem_of_mem_drop hx
    · rw [List.dropLast_eq_take, List.drop_take] at hx
      exact List.mem_of_mem_take hx
  simpa using this

theorem destroy_perm [Group G] {infInt : Int} {set : Settings} {s : State G} {ns : List Int}
    (hi : Inv set s ns) {w : Writer G} (hw : WInv infInt set s w) :
    ((w.marginalized infInt s.keyFrames).lines ++ (w.marginalized infInt s.keyFrames).pool).Perm
      ((createdOf s).flatMap poseEntries) := by
  refine (marginalized_perm infInt w _ (destroy_nodup hi hw)).trans ?_
  unfold createdOf
  rw [List.flatMap_append]
  exact hw.perm.append_right _

theorem entries_pos [Group G] {set : Settings} {s : State G} {ns : List Int}
    (hi : Inv set s ns) : ∀ e ∈ (createdOf s).flatMap poseEntries, e.1 ∈ ns := by
  intro e he
  have h1 : e.1 ∈ framesOf (createdOf s) := by
    rw [← poseEntries_fst]; exact List.mem_map_of_mem he
  rw [created_frames hi] at h1
  exact mem_frames h1

/-- Everything is flushed if the converted infinity exceeds all frame numbers. -/
theorem destroy_pool_nil [Group G] {infInt : Int} {set : Settings} {s : State G} {ns : List Int}
    (hi : Inv set s ns) {w : Writer G} (hw : WInv infInt set s w) (hinf : ∀ n ∈ ns, n < infInt) :
    (w.marginalized infInt s.keyFrames).pool = [] := by
  apply List.eq_nil_iff_forall_not_mem.2
  intro x hx
  have h1 : infInt ≤ x.1 := by
    have hs := foldl_poolInsert_sorted (s.keyFrames.flatMap poseEntries) w.pool hw.pool
    have hc := destroy_cur hi hw
    have hx' : x ∈ List.dropWhile (fun e => decide (e.1 < threshold infInt
        (w.marginalized infInt s.keyFrames).cur))
        ((s.keyFrames.flatMap poseEntries).foldl (fun p x => poolInsert x p) w.pool) := hx
    rw [hc] at hx'
    exact dropWhile_ge hs x hx'
  have h2 := entries_pos hi x ((destroy_perm hi hw).subset (List.mem_append_right _ hx))
  have := hinf _ h2
  omega

theorem destroy_lines_none [Group G] {infInt : Int} {set : Settings} {s : State G} {ns : List Int}
    (hi : Inv set s ns) {w : Writer G} (hw : WInv infInt set s w) (hinf : ∀ n ∈ ns, infInt ≤ n) :
    (w.marginalized infInt s.keyFrames).lines = w.lines := by
  have hc := destroy_cur hi hw
  have e : (w.marginalized infInt s.keyFrames).lines = w.lines ++
      List.takeWhile (fun e => decide (e.1 < threshold infInt (w.marginalized infInt s.keyFrames).cur))
        ((s.keyFrames.flatMap poseEntries).foldl (fun p x => poolInsert x p) w.pool) := rfl
  rw [hc] at e
  rw [e]
  have hnil : List.takeWhile (fun e => decide (e.1 < threshold infInt []))
        ((s.keyFrames.flatMap poseEntries).foldl (fun p x => poolInsert x p) w.pool) = [] := by
    apply List.eq_nil_iff_forall_not_mem.2
    intro x hx
    have h1 : x.1 < infInt := takeWhile_lt x hx
    have h2 := (List.takeWhile_sublist _).subset hx
    have h3 := (foldl_poolInsert_perm _ _ (destroy_nodup hi hw)).subset h2
    have h4 : x ∈ (createdOf s).flatMap poseEntries := by
      unfold createdOf
      rw [List.flatMap_append, List.mem_append]
      rcases List.mem_append.1 h3 with h | h
      · left; exact hw.perm.subset (List.mem_append_right _ h)
      · right; exact h
    have := hinf _ (entries_pos hi x h4)
    omega
  rw [hnil, List.append_nil]

theorem destroy_sorted [Group G] {infInt : Int} {set : Settings} {s : State G} {ns : List Int}
    (hi : Inv set s ns) {w : Writer G} (hw : WInv infInt set s w) (ho : Ordered set) :
    Sorted (w.marginalized infInt s.keyFrames).lines := by
  obtain ⟨hl, b, h1, h2, h3⟩ := hw.order ho
  refine (marginalized_sorted infInt w _ (destroy_nodup hi hw) hw.pool hl h1 h2 ?_).1
  intro e he
  obtain ⟨kf, hkf, hmem⟩ := List.mem_flatMap.1 he
  have g1 := h3 kf hkf
  have g2 := entries_ge hi (kf := kf) (List.mem_append_right _ hkf) e hmem
  omega

theorem step_prefix [Group G] (infInt : Int) (w : Writer G) (e : Event G) :
    w.lines <+: (w.step infInt e).lines := by
  cases e with
  | marginalized kfs => exact List.prefix_append _ _
  | destructed kfs => exact List.prefix_append _ _
  | _ => exact List.prefix_refl _

theorem foldl_prefix [Group G] (infInt : Int) : ∀ (b : List (Event G)) (w : Writer G),
    w.lines <+: (b.foldl (Writer.step infInt) w).lines
  | [], w => List.prefix_refl _
  | e :: b, w => (step_prefix infInt w e).trans (foldl_prefix infInt b _)

/-- Two lists with the same elements and strictly increasing keys are equal. -/
theorem sorted_perm_eq {a b : List (Int × G)} (ha : Sorted a) (hb : Sorted b) (h : a.Perm b) : a = b :=
  h.eq_of_pairwise (fun x y _ _ h1 h2 => by omega) ha hb

theorem expected_sorted {set : Settings} [Group G] {s : State G} {ns : List Int} (hi : Inv set s ns)
    (hf : set.trackFromLastKf = true) : Sorted ((createdOf s).flatMap poseEntries) := by
  have hs := frames_sorted (p := policyOf set) (by exact hf) hi.sorted
  rw [← created_frames hi, ← poseEntries_fst, List.pairwise_map] at hs
  exact hs

/-! ## Ground truth -/

/-- A table covers a frame number. -/
def Covers (table : List G) (n : Int) : Prop := 0 ≤ n ∧ n < table.length

theorem lookup_ok {table : List G} {n : Int} (h : Covers table n) :
    ∃ g, lookup table n = .ok g ∧ table[n.toNat]? = some g := by
  have h1 : n.toNat < table.length := by have := h.1; have := h.2; omega
  refine ⟨table[n.toNat], ?_, List.getElem?_eq_getElem h1⟩
  unfold lookup
  rw [if_pos h.1, List.getElem?_eq_getElem h1]

/-- What the ground truth writer has after writing lines for `nums`. -/
structure GInv [Group G] (gt : List G) (w : WriterGT G) (nums : List Int) : Prop where
  unaligned : w.unaligned = gt
  len : w.aligned.length = gt.length
  lines : w.lines.map (·.1) = nums
  matrix : w.matrixLines.map (·.1) = nums ∧ ∀ l ∈ w.matrixLines, gt[l.1.toNat]?.map (·⁻¹) = some l.2

theorem put_ok [Group G] {gt : List G} {w : WriterGT G} {nums : List Int} (h : GInv gt w nums) {n : Int}
    (hn : Covers gt n) : ∃ w', w.put n = .ok w' ∧ GInv gt w' (nums ++ [n]) := by
  obtain ⟨u, hu, hu2⟩ := lookup_ok (table := w.unaligned) (by rw [h.unaligned]; exact hn)
  obtain ⟨a, ha, _⟩ := lookup_ok (table := w.aligned) (n := n) ⟨hn.1, by rw [h.len]; exact hn.2⟩
  refine ⟨_, by unfold WriterGT.put; rw [hu, ha], ?_⟩
  refine ⟨h.unaligned, h.len, ?_, ?_, ?_⟩
  · simp [h.lines]
  · simp [h.matrix.1]
  · intro l hl
    rcases List.mem_append.1 hl with hl | hl
    · exact h.matrix.2 l hl
    · simp only [List.mem_singleton] at hl
      subst hl
      rw [h.unaligned] at hu2
      simp [hu2]

theorem puts_ok [Group G] {gt : List G} : ∀ (ms : List Int) {w : WriterGT G} {nums : List Int},
    GInv gt w nums → (∀ n ∈ ms, Covers gt n) →
    ∃ w', ms.foldlM WriterGT.put w = .ok w' ∧ GInv gt w' (nums ++ ms)
  | [], w, nums, h, _ => ⟨w, rfl, by simpa using h⟩
  | n :: ms, w, nums, h, hc => by
    obtain ⟨w1, e1, h1⟩ := put_ok h (hc n (by simp))
    obtain ⟨w2, e2, h2⟩ := puts_ok ms h1 (fun m hm => hc m (by simp [hm]))
    refine ⟨w2, ?_, by simpa using h2⟩
    rw [List.foldlM_cons, e1]; exact e2

/-- The ground truth table covers what an observer call mentions. -/
def CoversEvent (gt : List G) : Event G → Prop
  | .initialized kfs => 1 < kfs.length ∧ ∀ kf ∈ kfs, Covers gt kf.num
  | .marginalized kfs => ∀ n ∈ framesOf kfs, Covers gt n
  | .destructed kfs => ∀ n ∈ framesOf kfs, Covers gt n
  | _ => True

/-- Frames written for one observer call. -/
def writtenBy : Event G → List Int
  | .marginalized kfs => framesOf kfs
  | .destructed kfs => framesOf kfs
  | _ => []

theorem gstep_ok [Group G] {align : G → G → G → G → G → G} {gt : List G} {w : WriterGT G}
    {nums : List Int} (h : GInv gt w nums) {e : Event G} (he : CoversEvent gt e) :
    ∃ w', w.step align e = .ok w' ∧ GInv gt w' (nums ++ writtenBy e) := by
  cases e with
  | initialized kfs =>
    obtain ⟨h1, h2⟩ := he
    have hne : kfs ≠ [] := by intro h; rw [h] at h1; simp at h1
    obtain ⟨f, l, rfl⟩ := List.exists_cons_of_ne_nil hne
    have hlast := List.getLast?_eq_some_getLast hne
    obtain ⟨gf, hgf, _⟩ := lookup_ok (table := w.aligned) (n := f.num)
      (by have := h2 f (by simp); exact ⟨this.1, by rw [h.len]; exact this.2⟩)
    obtain ⟨gl, hgl, _⟩ := lookup_ok (table := w.aligned) (n := ((f :: l).getLast hne).num)
      (by have := h2 _ (List.getLast_mem hne); exact ⟨this.1, by rw [h.len]; exact this.2⟩)
    refine ⟨{ w with aligned := w.aligned.map (align f.thisToWorld⁻¹
      ((f :: l).getLast hne).thisToWorld⁻¹ gf gl) }, ?_, ?_⟩
    · unfold WriterGT.step WriterGT.initialized
      simp only [List.head?_cons, hlast]
      rw [if_pos h1, hgf, hgl]
    · exact ⟨h.unaligned, by simpa using h.len, by simpa [writtenBy] using h.lines,
        by simpa [writtenBy] using h.matrix.1, h.matrix.2⟩
  | marginalized kfs => exact puts_ok _ h he
  | destructed kfs => exact puts_ok _ h he
  | newFrame n => exact ⟨w, rfl, by simpa [writtenBy] using h⟩
  | newKeyFrame kf => exact ⟨w, rfl, by simpa [writtenBy] using h⟩

theorem gsteps_ok [Group G] {align : G → G → G → G → G → G} {gt : List G} : ∀ (log : List (Event G))
    {w : WriterGT G} {nums : List Int}, GInv gt w nums → (∀ e ∈ log, CoversEvent gt e) →
    ∃ w', log.foldlM (WriterGT.step align) w = .ok w' ∧ GInv gt w' (nums ++ log.flatMap writtenBy)
  | [], w, nums, h, _ => ⟨w, rfl, by simpa using h⟩
  | e :: log, w, nums, h, hc => by
    obtain ⟨w1, e1, h1⟩ := gstep_ok (align := align) h (hc e (by simp))
    obtain ⟨w2, e2, h2⟩ := gsteps_ok (align := align) log h1 (fun m hm => hc m (by simp [hm]))
    refine ⟨w2, ?_, by simpa using h2⟩
    rw [List.foldlM_cons, e1]; exact e2

theorem written_eq {log : List (Event G)} (h : destructedOf log = []) :
    log.flatMap writtenBy = framesOf (marginalizedOf log) := by
  induction log with
  | nil => rfl
  | cons e log ih =>
    have hs : destructedOf (e :: log) = destructedOf [e] ++ destructedOf log := by
      simp [destructedOf]
    have hm : marginalizedOf (e :: log) = marginalizedOf [e] ++ marginalizedOf log := by
      simp [marginalizedOf]
    rw [hs, List.append_eq_nil_iff] at h
    rw [List.flatMap_cons, ih h.2, hm, framesOf_append]
    congr 1
    cases e with
    | destructed kfs =>
      have : kfs = [] := by simpa [destructedOf] using h.1
      simp [this, writtenBy, marginalizedOf, framesOf]
    | marginalized kfs => simp [writtenBy, marginalizedOf]
    | _ => simp [writtenBy, marginalizedOf, framesOf]

/-- A table that covers the history covers all observer calls. -/
theorem covers_log [Group G] {set : Settings} {s : State G} {ns : List Int} (hi : Inv set s ns)
    {gt : List G} (hg : ∀ n ∈ ns, n < gt.length) (hd : destructedOf s.log = []) :
    ∀ e ∈ s.log ++ [.destructed s.keyFrames], CoversEvent gt e := by
  have hcov : ∀ n ∈ ns, Covers gt n := fun n hn => ⟨Int.le_of_lt (hi.range n hn).1, hg n hn⟩
  have hfr : ∀ n ∈ framesOf (createdOf s), Covers gt n := by
    intro n hn
    rw [created_frames hi] at hn
    exact hcov n (mem_frames hn)
  have hsub : ∀ (a b : List (KeyFrame G)), (∀ k ∈ a, k ∈ b) → ∀ n ∈ framesOf a, n ∈ framesOf b := by
    intro a b h n hn
    simp only [framesOf, List.mem_flatMap] at hn ⊢
    obtain ⟨k, hk, hn⟩ := hn
    exact ⟨k, h k hk, hn⟩
  intro e he
  rcases List.mem_append.1 he with h | h
  · cases e with
    | initialized kfs =>
      have hmem : kfs.map (·.num) ∈ initializedOf s.log := by
        simp only [initializedOf, List.mem_flatMap]
        exact ⟨_, h, by simp⟩
      rw [hi.inits] at hmem
      split at hmem
      · rename_i hl
        have hc2 : kfs.map (·.num) = ns.take 1 ++ (ns.drop ((policyOf set).skip + 1)).take 1 := by
          simpa using hmem
        constructor
        · have := congrArg List.length hc2
          simp only [List.length_map, List.length_append, List.length_take, List.length_drop] at this
          omega
        · intro kf hkf
          have h1 : kf.num ∈ ns.take 1 ++ (ns.drop ((policyOf set).skip + 1)).take 1 := by
            rw [← hc2]; exact List.mem_map_of_mem hkf
          refine hcov _ ?_
          rcases List.mem_append.1 h1 with h | h
          · exact List.mem_of_mem_take h
          · exact List.mem_of_mem_drop (List.mem_of_mem_take h)
      · simp at hmem
    | marginalized kfs =>
      intro n hn
      refine hfr n (hsub kfs _ ?_ n hn)
      intro k hk
      refine List.mem_append_left _ ?_
      simp only [marginalizedOf, List.mem_flatMap]
      exact ⟨_, h, hk⟩
    | destructed kfs =>
      have : ∀ k ∈ kfs, k ∈ destructedOf s.log := by
        intro k hk
        simp only [destructedOf, List.mem_flatMap]
        exact ⟨_, h, hk⟩
      rw [hd] at this
      have hnil : kfs = [] := List.eq_nil_iff_forall_not_mem.2 (fun k hk => by simpa using this k hk)
      intro n hn
      rw [hnil] at hn; simp [framesOf] at hn
    | newFrame n => trivial
    | newKeyFrame kf => trivial
  · simp only [List.mem_singleton] at h
    subst h
    intro n hn
    exact hfr n (hsub s.keyFrames _ (fun k hk => List.mem_append_right _ hk) n hn)

end Mdso.Traj
