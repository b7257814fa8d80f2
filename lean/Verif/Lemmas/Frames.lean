import Verif.Spec.Frames
import Mathlib.Data.List.Perm.Basic
import Mathlib.Data.List.Perm.Subperm
import Mathlib.Data.List.Nodup

set_option autoImplicit false

namespace Mdso.FrameSpec

theorem book_lt {p : Policy} {ns : List Int} (h : ns.length < p.skip + 2) : book p ns = [] := by
  cases ns with
  | nil => rfl
  | cons f rest =>
    have : rest.drop p.skip = [] := List.drop_eq_nil_of_le (by simp at h; omega)
    simp [book, this]

theorem book_snoc {p : Policy} {ns : List Int} {n : Int} (h : p.skip + 2 ≤ ns.length) :
    book p (ns ++ [n]) = track p (book p ns) n := by
  cases ns with
  | nil => simp at h
  | cons f rest =>
    have h1 : p.skip < rest.length := by simp at h; omega
    have h2 : rest.drop p.skip ≠ [] := by
      intro e; have := List.drop_eq_nil_iff.1 e; omega
    have h3 : (rest ++ [n]).drop p.skip = rest.drop p.skip ++ [n] :=
      List.drop_append_of_le_length (by omega)
    obtain ⟨s, l, e⟩ := List.exists_cons_of_ne_nil h2
    simp [book, h3, e]

theorem book_init {p : Policy} {ns : List Int} {f n : Int} (h : ns.length + 1 = p.skip + 1)
    : book p (f :: ns ++ [n]) = [(f, []), (n, [])] := by
  have : (ns ++ [n]).drop p.skip = [n] := by
    have : p.skip = ns.length := by omega
    rw [this]; simp
  simp [book, this]

theorem attach_length (b : Book) (fl : Bool) (n : Int) : (attach fl b n).length = b.length := by
  simp [attach]

theorem map_fst_modify (b : Book) (i : Nat) (n : Int) :
    (b.modify i (fun e => (e.1, e.2 ++ [n]))).map Prod.fst = b.map Prod.fst := by
  apply List.ext_getElem
  · simp
  · intro j h1 h2
    simp [List.getElem_modify]
    split <;> rfl

theorem attach_keyFrames (b : Book) (fl : Bool) (n : Int) :
    (attach fl b n).keyFrames = b.keyFrames := map_fst_modify b _ n

theorem modify_frames (b : Book) (i : Nat) (hi : i < b.length) (n : Int) :
    (Book.frames (b.modify i (fun e => (e.1, e.2 ++ [n])))).Perm (b.frames ++ [n]) := by
  induction b generalizing i with
  | nil => simp at hi
  | cons e b ih =>
    cases i with
    | zero =>
      simp only [Book.frames, List.modify_zero_cons, List.flatMap_cons, List.cons_append, List.append_assoc]
      apply List.Perm.cons
      apply List.Perm.append_left
      simpa using (List.perm_append_comm (l₁ := [n]))
    | succ i =>
      simp only [Book.frames, List.modify_succ_cons, List.flatMap_cons, List.append_assoc] at ih ⊢
      apply List.Perm.append_left
      exact ih i (by simpa using hi)

theorem attach_frames (b : Book) (fl : Bool) (n : Int) (h : 2 ≤ b.length) :
    (attach fl b n).frames.Perm (b.frames ++ [n]) := by
  unfold attach
  apply modify_frames
  split <;> omega

theorem getLast?_keyFrames (b : Book) :
    b.keyFrames.getLast? = b.getLast?.map Prod.fst := by
  simp [Book.keyFrames, List.getLast?_map]

theorem track_length_ge (p : Policy) (b : Book) (n : Int) : b.length ≤ (track p b n).length := by
  unfold track
  split
  · exact Nat.le_refl _
  · split
    · split <;> simp
    · simp [attach_length]

/-- Length of the book after initialization. -/
theorem book_length {p : Policy} {ns : List Int} (h : p.skip + 2 ≤ ns.length) :
    2 ≤ (book p ns).length := by
  cases ns with
  | nil => simp at h
  | cons f rest =>
    have h1 : p.skip < rest.length := by simp at h; omega
    have h2 : rest.drop p.skip ≠ [] := by
      intro e; have := List.drop_eq_nil_iff.1 e; omega
    obtain ⟨s, l, e⟩ := List.exists_cons_of_ne_nil h2
    simp only [book, e]
    have : ∀ (l : List Int) (b : Book), b.length ≤ (l.foldl (track p) b).length := by
      intro l
      induction l with
      | nil => intro b; exact Nat.le_refl _
      | cons a l ih => intro b; exact Nat.le_trans (track_length_ge p b a) (ih _)
    exact this l [(f, []), (s, [])]

/-- Keyframe numbers are among the history, and frames too (as a sub-multiset). -/
theorem frames_subperm {p : Policy} {ns : List Int} : (book p ns).frames.Subperm ns := by
  rw [← List.reverse_reverse ns]
  generalize ns.reverse = r
  induction r with
  | nil => simp [book, Book.frames]
  | cons n r ih =>
    rw [List.reverse_cons]
    rcases Nat.lt_trichotomy (r.length + 1) (p.skip + 2) with h | h | h
    · rw [book_lt (by simpa using h)]; simp [Book.frames, List.nil_subperm]
    · obtain ⟨f, l, e⟩ := List.exists_cons_of_ne_nil (l := r.reverse) (by
        intro e; have := congrArg List.length e; simp at this; simp [this] at h)
      rw [e]
      have hl : l.length + 1 = p.skip + 1 := by
        have := congrArg List.length e; simp at this; omega
      rw [book_init hl]
      simp only [Book.frames, List.flatMap_cons, List.flatMap_nil, List.cons_append,
        List.nil_append]
      exact (List.Sublist.cons_cons f (by simp)).subperm
    · rw [book_snoc (by simp; omega)]
      have hb : 2 ≤ (book p r.reverse).length := book_length (by simp; omega)
      unfold track
      split
      · rename_i e
        rw [List.getLast?_eq_none_iff] at e
        rw [e] at hb; simp at hb
      · split
        · split
          · simp only [Book.frames, List.flatMap_append, List.flatMap_cons, List.flatMap_nil,
              List.append_nil]
            exact List.Subperm.append ih (List.Subperm.refl _)
          · exact ih.trans (List.sublist_append_left _ _).subperm
        · exact (attach_frames _ _ _ hb).subperm.trans
            (List.Subperm.append ih (List.Subperm.refl _))

/-- If keyframes are chosen all along, nothing is lost. -/
theorem frames_perm {p : Policy} (hc : p.choose = true) {f : Int} {rest : List Int}
    (h : p.skip < rest.length) :
    (book p (f :: rest)).frames.Perm (f :: rest.drop p.skip) := by
  have h2 : rest.drop p.skip ≠ [] := by
    intro e; have := List.drop_eq_nil_iff.1 e; omega
  obtain ⟨s, l, e⟩ := List.exists_cons_of_ne_nil h2
  simp only [book, e]
  have : ∀ (l : List Int) (b : Book), 2 ≤ b.length →
      (l.foldl (track p) b).frames.Perm (b.frames ++ l) := by
    intro l
    induction l with
    | nil => intro b _; simp
    | cons a l ih =>
      intro b hb
      have h1 : (track p b a).frames.Perm (b.frames ++ [a]) := by
        unfold track
        split
        · rename_i e
          rw [List.getLast?_eq_none_iff] at e
          rw [e] at hb; simp at hb
        · split
          · simp [Book.frames]
          · exact attach_frames _ _ _ hb
      refine (ih _ (Nat.le_trans hb (track_length_ge p b a))).trans ?_
      simpa using h1.append_right l
  simpa [Book.frames] using this l [(f, []), (s, [])] (by simp)

theorem mem_frames {p : Policy} {ns : List Int} {n : Int} (h : n ∈ (book p ns).frames) : n ∈ ns :=
  frames_subperm.subset h

theorem mem_keyFrames_frames {b : Book} {n : Int} (h : n ∈ b.keyFrames) : n ∈ b.frames := by
  simp only [Book.keyFrames, List.mem_map] at h
  obtain ⟨e, he, rfl⟩ := h
  simp only [Book.frames, List.mem_flatMap]
  exact ⟨e, he, by simp⟩

/-- Keyframe numbers increase if the history does. -/
theorem keyFrames_sorted {p : Policy} {ns : List Int} (hs : ns.Pairwise (· < ·)) :
    (book p ns).keyFrames.Pairwise (· < ·) := by
  rw [← List.reverse_reverse ns] at hs ⊢
  generalize ns.reverse = r at hs
  induction r with
  | nil => simp [book, Book.keyFrames]
  | cons n r ih =>
    rw [List.reverse_cons] at hs ⊢
    rw [List.pairwise_append] at hs
    have ih := ih hs.1
    rcases Nat.lt_trichotomy (r.length + 1) (p.skip + 2) with h | h | h
    · rw [book_lt (by simpa using h)]; simp [Book.keyFrames]
    · obtain ⟨f, l, e⟩ := List.exists_cons_of_ne_nil (l := r.reverse) (by
        intro e; have := congrArg List.length e; simp at this; simp [this] at h)
      rw [e] at hs ⊢
      have hl : l.length + 1 = p.skip + 1 := by
        have := congrArg List.length e; simp at this; omega
      rw [book_init hl]
      have := hs.2.2 f (by simp) n (by simp)
      simp [Book.keyFrames, this]
    · rw [book_snoc (by simp; omega)]
      unfold track
      split
      · exact ih
      · split
        · split
          · simp only [Book.keyFrames, List.map_append, List.pairwise_append]
            refine ⟨ih, by simp, ?_⟩
            intro a ha b hb
            simp at hb; subst hb
            exact hs.2.2 a (mem_frames (mem_keyFrames_frames ha)) b (by simp)
          · exact ih
        · rw [attach_keyFrames]; exact ih

theorem track_head (p : Policy) (b : Book) (n : Int) (h : b ≠ []) :
    (track p b n).keyFrames.head? = b.keyFrames.head? := by
  unfold track
  split
  · rfl
  · split
    · split
      · cases b with
        | nil => exact absurd rfl h
        | cons e b => rfl
      · rfl
    · rw [attach_keyFrames]

theorem book_head {p : Policy} {ns : List Int} (h : p.skip + 2 ≤ ns.length) :
    (book p ns).keyFrames.head? = ns.head? := by
  cases ns with
  | nil => simp at h
  | cons f rest =>
    have h1 : p.skip < rest.length := by simp at h; omega
    have h2 : rest.drop p.skip ≠ [] := by
      intro e; have := List.drop_eq_nil_iff.1 e; omega
    obtain ⟨s, l, e⟩ := List.exists_cons_of_ne_nil h2
    simp only [book, e]
    have : ∀ (l : List Int) (b : Book), b ≠ [] →
        (l.foldl (track p) b).keyFrames.head? = b.keyFrames.head? := by
      intro l
      induction l with
      | nil => intro b _; rfl
      | cons a l ih =>
        intro b hb
        have hne : track p b a ≠ [] := by
          intro h0
          have := track_length_ge p b a
          rw [h0] at this
          exact hb (List.length_eq_zero_iff.1 (by simpa using this))
        exact (ih _ hne).trans (track_head p b a hb)
    exact this l [(f, []), (s, [])] (by simp)

/-- Any two keyframes, apart from the very first one, are a multiple of `shift` apart. -/
theorem keyFrames_multiples (p : Policy) (ns : List Int) :
    ((book p ns).keyFrames.drop 1).Pairwise (fun a b => p.shift ∣ b - a) := by
  have key : ∀ (l : List Int) (b : Book), 2 ≤ b.length →
      (b.keyFrames.drop 1).Pairwise (fun a b => p.shift ∣ b - a) →
      ((l.foldl (track p) b).keyFrames.drop 1).Pairwise (fun a b => p.shift ∣ b - a) := by
    intro l
    induction l with
    | nil => intro b _ h; exact h
    | cons n l ih =>
      intro b hb h
      refine ih _ (by have := track_length_ge p b n; omega) ?_
      unfold track
      split
      · exact h
      · rename_i newest ts hl
        split
        · rename_i hd
          split
          · have hk : (b ++ [(n, ([] : List Int))]).keyFrames = b.keyFrames ++ [n] := by
              simp [Book.keyFrames]
            have hlen : b.keyFrames.length = b.length := by simp [Book.keyFrames]
            show (List.drop 1 (Book.keyFrames (b ++ [(n, ([] : List Int))]))).Pairwise _
            rw [hk, List.drop_append_of_le_length (by omega), List.pairwise_append]
            refine ⟨h, by simp, ?_⟩
            intro a ha c hc
            simp only [List.mem_singleton] at hc
            subst hc
            -- `a` is the newest keyframe or comes before it
            have hlast : b.keyFrames.getLast? = some newest := by
              rw [getLast?_keyFrames, hl]; rfl
            have hlast' : (b.keyFrames.drop 1).getLast? = some newest := by
              rw [List.getLast?_drop, if_neg (by omega)]; exact hlast
            have hsplit := List.dropLast_append_getLast? _ hlast'
            rw [← hsplit] at ha h
            rcases List.mem_append.1 ha with h1 | h1
            · have := (List.pairwise_append.1 h).2.2 a h1 newest (by simp)
              have h2 := Int.dvd_add hd this
              have h3 : c - newest + (newest - a) = c - a := by omega
              rwa [h3] at h2
            · simp only [List.mem_singleton] at h1
              subst h1; exact hd
          · exact h
        · rw [attach_keyFrames]; exact h
  cases ns with
  | nil => simp [book, Book.keyFrames]
  | cons f rest =>
    cases hd : rest.drop p.skip with
    | nil => simp [book, hd, Book.keyFrames]
    | cons a l =>
      simp only [book, hd]
      exact key l [(f, []), (a, [])] (by simp) (by simp [Book.keyFrames])

theorem book_induction {p : Policy} {P : List Int → Book → Prop}
    (h0 : ∀ ns, P ns [])
    (h1 : ∀ f l n, (f :: l ++ [n]).Pairwise (· < ·) → P (f :: l ++ [n]) [(f, []), (n, [])])
    (h2 : ∀ ns n, (ns ++ [n]).Pairwise (· < ·) → 2 ≤ (book p ns).length → P ns (book p ns) →
      P (ns ++ [n]) (track p (book p ns) n))
    {ns : List Int} (hs : ns.Pairwise (· < ·)) : P ns (book p ns) := by
  rw [← List.reverse_reverse ns] at hs ⊢
  generalize ns.reverse = r at hs
  induction r with
  | nil => simpa [book] using h0 []
  | cons n r ih =>
    rw [List.reverse_cons] at hs ⊢
    have hs' := hs
    rw [List.pairwise_append] at hs'
    have ih := ih hs'.1
    rcases Nat.lt_trichotomy (r.length + 1) (p.skip + 2) with h | h | h
    · rw [book_lt (by simpa using h)]; exact h0 _
    · obtain ⟨f, l, e⟩ := List.exists_cons_of_ne_nil (l := r.reverse) (by
        intro e; have := congrArg List.length e; simp at this; simp [this] at h)
      rw [e] at hs ⊢
      have hl : l.length + 1 = p.skip + 1 := by
        have := congrArg List.length e; simp at this; omega
      rw [book_init hl]
      exact h1 f l n hs
    · rw [book_snoc (by simp; omega)]
      exact h2 _ _ hs (book_length (by simp; omega)) ih

/-- A frame that belongs to a keyframe is newer than it. -/
theorem tracked_gt {p : Policy} {ns : List Int} (hs : ns.Pairwise (· < ·)) :
    ∀ e ∈ book p ns, ∀ t ∈ e.2, e.1 < t := by
  refine book_induction (P := fun _ b => ∀ e ∈ b, ∀ t ∈ e.2, e.1 < t) ?_ ?_ ?_ hs
  · simp
  · simp
  · intro ns n hs' hb ih
    have hlt : ∀ e ∈ book p ns, e.1 < n := by
      intro e he
      rw [List.pairwise_append] at hs'
      refine hs'.2.2 _ (mem_frames (p := p) ?_) n (by simp)
      simp only [Book.frames, List.mem_flatMap]
      exact ⟨e, he, by simp⟩
    unfold track
    split
    · exact ih
    · split
      · split
        · intro e he t ht
          rcases List.mem_append.1 he with h | h
          · exact ih e h t ht
          · simp at h; subst h; simp at ht
        · exact ih
      · intro e he t ht
        unfold attach at he
        generalize (book p ns).length - (if p.fromLast = true then 1 else 2) = i at he
        obtain ⟨j, hj, rfl⟩ := List.getElem_of_mem he
        have hj' : j < (book p ns).length := by simpa using hj
        rw [List.getElem_modify] at ht ⊢
        have hm := List.getElem_mem hj'
        split at ht
        · rename_i hij
          rw [if_pos hij]
          rcases List.mem_append.1 ht with h | h
          · exact ih _ hm t h
          · simp at h; subst h; exact hlt ((book p ns)[j]) hm
        · rename_i hij
          rw [if_neg hij]
          exact ih _ hm t ht

theorem modify_last_frames (b : Book) (hb : 1 ≤ b.length) (n : Int) :
    Book.frames (b.modify (b.length - 1) (fun e => (e.1, e.2 ++ [n]))) = b.frames ++ [n] := by
  induction b with
  | nil => simp at hb
  | cons e b ih =>
    cases b with
    | nil => simp [Book.frames]
    | cons e' b =>
      have := ih (by simp)
      simp only [List.length_cons, Nat.add_sub_cancel] at this ⊢
      rw [List.modify_succ_cons]
      simp only [Book.frames, List.flatMap_cons] at this ⊢
      rw [this]; simp

/-- When frames belong to the newest keyframe, the book lists them in order. -/
theorem frames_sorted {p : Policy} (hf : p.fromLast = true) {ns : List Int} (hs : ns.Pairwise (· < ·)) :
    (book p ns).frames.Pairwise (· < ·) := by
  refine book_induction (P := fun _ b => b.frames.Pairwise (· < ·)) ?_ ?_ ?_ hs
  · simp [Book.frames]
  · intro f l n h
    have := (List.pairwise_append.1 h).2.2 f (by simp) n (by simp)
    simp [Book.frames, this]
  · intro ns n hs' hb ih
    have happ : ((book p ns).frames ++ [n]).Pairwise (· < ·) := by
      rw [List.pairwise_append]
      refine ⟨ih, by simp, ?_⟩
      intro a ha b hb
      rw [List.pairwise_append] at hs'
      exact hs'.2.2 a (mem_frames ha) b hb
    unfold track
    split
    · exact ih
    · split
      · split
        · simpa [Book.frames] using happ
        · exact ih
      · unfold attach
        rw [hf]
        simp only [if_true]
        rw [modify_last_frames _ (by omega)]
        exact happ

end Mdso.FrameSpec
