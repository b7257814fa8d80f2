import Verif.Model.SelectPix
import Verif.Props.PixelSelector

/-!
# C159: `selectpix` shows the images of a directory
-/

set_option autoImplicit false

namespace Mdso.SelectPix

open Mdso.PixSel Mdso.PixSelSpec

/-- The name ends in `.jpg` or `.png`. -/
def HasExtension (n : Name) : Prop := ∃ stem, n = stem ++ [46, 106, 112, 103] ∨ n = stem ++ [46, 112, 110, 103]

/-- The path of an entry of the directory given on the command line: with a slash between them unless the argument ends in one. -/
def IsPath (arg n path : Name) : Prop := (∃ d, arg = d ++ [slash] ∧ path = arg ++ n) ∨ ((¬ ∃ d, arg = d ++ [slash]) ∧ path = arg ++ [slash] ++ n)

theorem drop_suffix (fname e : Name) : (fname.length ≥ e.length ∧ (fname.drop (fname.length - e.length)).take e.length = e) ↔
    ∃ stem, fname = stem ++ e := by
  constructor
  · rintro ⟨h1, h2⟩
    refine ⟨fname.take (fname.length - e.length), ?_⟩
    have : (fname.drop (fname.length - e.length)).take e.length = fname.drop (fname.length - e.length) := by
      rw [List.take_of_length_le]; simp; omega
    rw [this] at h2
    conv_lhs => rw [← List.take_append_drop (fname.length - e.length) fname, h2]
  · rintro ⟨stem, rfl⟩
    simp

theorem isImage_iff (fname : Name) : isImage fname = true ↔ HasExtension fname := by
  unfold isImage ext HasExtension
  simp only [List.any_cons, List.any_nil, Bool.or_false, Bool.or_eq_true, Bool.and_eq_true, decide_eq_true_eq, beq_iff_eq]
  rw [drop_suffix, drop_suffix]
  constructor
  · rintro (⟨s, h⟩ | ⟨s, h⟩)
    · exact ⟨s, Or.inl h⟩
    · exact ⟨s, Or.inr h⟩
  · rintro ⟨s, h | h⟩
    · exact Or.inl ⟨s, h⟩
    · exact Or.inr ⟨s, h⟩

theorem suffix_in_name {d n e stem : Name} (he : slash ∉ e) (h : d ++ [slash] ++ n = stem ++ e) : ∃ stem', n = stem' ++ e := by
  rcases List.append_eq_append_iff.1 h with ⟨a, -, h2⟩ | ⟨c, h1, h2⟩
  · exact ⟨a, h2⟩
  · rcases List.eq_nil_or_concat c with rfl | ⟨c', x, rfl⟩
    · exact ⟨[], by simpa using h2.symm⟩
    · exfalso
      rw [List.concat_eq_append, ← List.append_assoc] at h1
      have : x = slash := by
        have := congrArg List.getLast? h1
        simpa using this.symm
      subst this
      apply he
      rw [h2]
      simp

theorem ends_iff (arg : Name) : (arg ≠ [] ∧ arg.getLast? ≠ some slash) ∨ arg = [] ∨ ∃ d, arg = d ++ [slash] := by
  rcases List.eq_nil_or_concat arg with rfl | ⟨d, x, rfl⟩
  · exact Or.inr (Or.inl rfl)
  · by_cases hx : x = slash
    · subst hx; exact Or.inr (Or.inr ⟨d, by simp⟩)
    · exact Or.inl ⟨by simp, by simpa using hx⟩

theorem dirname_spec {arg : Name} (h : arg ≠ []) (n : Name) : IsPath arg n (dirnameOf arg ++ n) ∧
    (isImage (dirnameOf arg ++ n) = true ↔ HasExtension n) := by
  have key : ∀ d : Name, isImage (d ++ [slash] ++ n) = true ↔ HasExtension n := by
    intro d
    rw [isImage_iff]
    constructor
    · rintro ⟨s, h | h⟩
      · obtain ⟨s', h'⟩ := suffix_in_name (by simp [slash]) h; exact ⟨s', Or.inl h'⟩
      · obtain ⟨s', h'⟩ := suffix_in_name (by simp [slash]) h; exact ⟨s', Or.inr h'⟩
    · rintro ⟨s, rfl | rfl⟩
      · exact ⟨d ++ [slash] ++ s, Or.inl (by simp)⟩
      · exact ⟨d ++ [slash] ++ s, Or.inr (by simp)⟩
  unfold dirnameOf
  rcases ends_iff arg with h1 | h1 | ⟨d, rfl⟩
  · rw [if_pos h1]
    refine ⟨Or.inr ⟨?_, rfl⟩, key arg⟩
    rintro ⟨d, rfl⟩
    exact h1.2 (by simp)
  · exact absurd h1 h
  · rw [if_neg (by simp)]
    exact ⟨Or.inl ⟨d, rfl, rfl⟩, key d⟩

theorem sortedNames_perm (l : List Name) : (sortedNames l).Perm l := List.mergeSort_perm _ _

theorem sortedNames_sorted (l : List Name) : (sortedNames l).Pairwise (· ≤ ·) := by
  have := List.pairwise_mergeSort (le := fun x y : Name => decide (x ≤ y))
    (by intro a b c h1 h2; simp at *; exact h1.trans h2) (by intro a b; simp; exact le_total a b) l
  unfold sortedNames
  simpa using this

section
variable {K : Type} [Field K] [LinearOrder K]

open Classical in
/-- What is shown, as a list: the paths of the images among `nms`, cut off where the run ends early. -/
theorem showAll_spec (w : World K) (fuel : Nat) (s : Settings K) (needed : Nat) (nms : List Name) : ∀ k st,
    ∃ rest, (nms.map (dirnameOf w.arg ++ ·)).filter (isImage ·) = ((showAll w fuel s needed k st nms).1.map (·.fname)) ++ rest ∧
      ((showAll w fuel s needed k st nms).2 = .finished → rest = []) ∧
      ∀ x ∈ (showAll w fuel s needed k st nms).1, ∃ g st1 st2 k', w.imread x.fname = some g ∧
        select fuel (w.shuffle k') s st1 g needed = .ok (some (x.points, st2)) ∧ x.prefH = prefH g.rows g.cols ∧ 0 < x.prefH := by
  induction nms with
  | nil => intro k st; exact ⟨[], rfl, fun _ => rfl, by simp [showAll]⟩
  | cons nm nms ih =>
    intro k st
    unfold showAll
    by_cases hi : isImage (dirnameOf w.arg ++ nm) = true
    · simp only [List.map_cons, List.filter_cons, if_pos hi]
      cases hr : w.imread (dirnameOf w.arg ++ nm) with
      | none => exact ⟨_, rfl, by simp, by simp⟩
      | some g =>
        simp only
        cases hs : select fuel (w.shuffle k) s st g needed with
        | error f => exact ⟨_, rfl, by simp, by simp⟩
        | ok o =>
          cases o with
          | none => exact ⟨_, rfl, by simp, by simp⟩
          | some r =>
            obtain ⟨pts, st'⟩ := r
            simp only
            by_cases hp : prefH g.rows g.cols ≤ 0
            · simp only [if_pos hp]; exact ⟨_, rfl, by simp, by simp⟩
            · simp only [if_neg hp]
              obtain ⟨rest, h1, h2, h3⟩ := ih (k + 1) st'
              refine ⟨rest, by rw [h1]; simp, h2, ?_⟩
              intro x hx
              rcases List.mem_cons.1 hx with rfl | hx
              · exact ⟨g, st, st', k, hr, hs, rfl, not_le.1 hp⟩
              · exact h3 x hx
    · simp only [List.map_cons, List.filter_cons, if_neg hi]
      exact ih k st

/-- C159. For any directory with distinct entries: the files shown are, in this order, a beginning of the sorted list of the entries
whose names end in `.jpg` or `.png`, each shown once, and all of them if the program finishes. At most the requested number of points is
marked in each. -/
theorem C159_images_partial {w : World K} (hs : ∀ k, IsShuffle (w.shuffle k)) (ha : w.arg ≠ []) {entries : List Name}
    (hl : w.listing = some entries) (hd : entries.Nodup) (fuel : Nat) (s : Settings K) (needed : Nat) :
    ∃ l l' : List Name, (l ++ l').Pairwise (· < ·) ∧ (∀ n, n ∈ l ++ l' ↔ n ∈ entries ∧ HasExtension n) ∧
      List.Forall₂ (fun n x => IsPath w.arg n x.fname) l (run w fuel s needed).1 ∧
      ((run w fuel s needed).2 = .finished → l' = []) ∧
      ∀ x ∈ (run w fuel s needed).1, x.points.length ≤ needed ∧ ∃ g, w.imread x.fname = some g ∧ 0 < x.prefH ∧
        (x.prefH : ℝ) ≤ (g.rows : ℝ) / g.cols * 1200 ∧ (g.rows : ℝ) / g.cols * 1200 < x.prefH + 1 := by
  have hrun : run w fuel s needed = showAll w fuel s needed 0 (init s) (sortedNames entries) := by unfold run; rw [hl]
  rw [hrun]
  obtain ⟨rest, h1, h2, h3⟩ := showAll_spec w fuel s needed (sortedNames entries) 0 (init s)
  obtain ⟨r, hr⟩ : ∃ r, r = showAll w fuel s needed 0 (init s) (sortedNames entries) := ⟨_, rfl⟩
  rw [← hr] at h1 h2 h3 ⊢
  obtain ⟨m, hm⟩ : ∃ m, m = (sortedNames entries).filter fun n => isImage (dirnameOf w.arg ++ n) := ⟨_, rfl⟩
  have hmap : m.map (dirnameOf w.arg ++ ·) = r.1.map (·.fname) ++ rest := by
    rw [← h1, hm, List.filter_map]; rfl
  have hml : r.1.length ≤ m.length := by
    have := congrArg List.length hmap
    simp at this; omega
  refine ⟨m.take r.1.length, m.drop r.1.length, ?_, ?_, ?_, ?_, ?_⟩
  · rw [List.take_append_drop, hm]
    have hnd : (sortedNames entries).Nodup := (sortedNames_perm entries).nodup_iff.2 hd
    have hsl : (sortedNames entries).Pairwise (· < ·) :=
      ((sortedNames_sorted entries).and hnd).imp fun h => lt_of_le_of_ne h.1 h.2
    exact hsl.filter _
  · intro n
    rw [List.take_append_drop, hm, List.mem_filter, (sortedNames_perm entries).mem_iff]
    simp only [(dirname_spec ha n).2]
  · have e1 : (m.take r.1.length).map (dirnameOf w.arg ++ ·) = r.1.map (·.fname) := by
      rw [List.map_take, hmap, List.take_append_of_le_length (by simp), List.take_of_length_le (by simp)]
    have e2 : List.Forall₂ (fun n p => IsPath w.arg n p) (m.take r.1.length) (r.1.map (·.fname)) ↔
        List.Forall₂ (fun n x => IsPath w.arg n x.fname) (m.take r.1.length) r.1 := List.forall₂_map_right_iff
    rw [← e2, ← e1, List.forall₂_map_right_iff, List.forall₂_same]
    intro n _
    exact (dirname_spec ha n).1
  · intro hf
    have := h2 hf
    rw [this] at hmap
    have := congrArg List.length hmap
    simp at this
    rw [List.drop_eq_nil_iff]
    omega
  · intro x hx
    obtain ⟨g, st1, st2, k', q1, q2, q3, q4⟩ := h3 x hx
    have hc := C24_count (hs k') q2
    refine ⟨by rw [hc.2.1]; exact min_le_left _ _, g, q1, q4, ?_⟩
    have hnn : (0 : ℝ) ≤ (g.rows : ℝ) / g.cols * 1200 := by positivity
    rw [q3]
    unfold prefH Util.truncInt
    rw [if_pos hnn]
    exact ⟨Int.floor_le _, Int.lt_floor_add_one _⟩

/-- C159. In which order the operating system lists the directory does not matter. -/
theorem C159_order {w w' : World K} {entries entries' : List Name} (hl : w.listing = some entries) (hp : entries'.Perm entries)
    (hw : w' = { w with listing := some entries' }) (fuel : Nat) (s : Settings K) (needed : Nat) :
    run w' fuel s needed = run w fuel s needed := by
  subst hw
  have he : sortedNames entries' = sortedNames entries :=
    List.Perm.eq_of_pairwise (le := (· ≤ ·)) (by intro a b _ _ h1 h2; exact le_antisymm h1 h2) (sortedNames_sorted _) (sortedNames_sorted _)
      ((sortedNames_perm _).trans (hp.trans (sortedNames_perm _).symm))
  have key : ∀ (nms : List Name) (k : Nat) (st : State),
      showAll { w with listing := some entries' } fuel s needed k st nms = showAll w fuel s needed k st nms := by
    intro nms
    induction nms with
    | nil => intro k st; rfl
    | cons nm nms ih => intro k st; unfold showAll; simp only [ih]
  unfold run
  rw [hl]
  simp only
  rw [he, key]

/-- A file with an image's name that cannot be read as an image is not skipped: the program ends there with an exception. -/
theorem C159_unreadable_violated {w : World K} (ha : w.arg ≠ []) {n : Name} (hn : HasExtension n) (hl : w.listing = some [n])
    (hr : ∀ path, IsPath w.arg n path → w.imread path = none) (fuel : Nat) (s : Settings K) (needed : Nat) :
    run w fuel s needed = ([], .faulty .exception) := by
  obtain ⟨h1, h2⟩ := dirname_spec ha n
  unfold run
  rw [hl]
  simp [sortedNames, showAll, h2.2 hn, hr _ h1]

/-- A picture more than 1200 times as wide as high is not shown: its height in the window is zero. -/
theorem C159_wide_violated {w : World K} (ha : w.arg ≠ []) {n : Name} (hn : HasExtension n) (hl : w.listing = some [n]) {g : Grad K}
    (hr : ∀ path, IsPath w.arg n path → w.imread path = some g) (hg : 1200 * g.rows < g.cols) (fuel : Nat) (s : Settings K) (needed : Nat) :
    (run w fuel s needed).1 = [] ∧ (run w fuel s needed).2 ≠ .finished := by
  obtain ⟨h1, h2⟩ := dirname_spec ha n
  have hp : prefH g.rows g.cols ≤ 0 := by
    have hc : (0 : ℝ) < g.cols := by exact_mod_cast (by omega : 0 < g.cols)
    have hg' : (1200 : ℝ) * g.rows < g.cols := by exact_mod_cast hg
    unfold prefH Util.truncInt
    rw [if_pos (by positivity)]
    have : (g.rows : ℝ) / g.cols * 1200 < 1 := by
      rw [div_mul_eq_mul_div, div_lt_one hc]; linarith
    have := Int.floor_lt.2 (by exact_mod_cast this : (g.rows : ℝ) / g.cols * 1200 < ((1 : Int) : ℝ))
    omega
  unfold run
  rw [hl]
  simp only [sortedNames, List.mergeSort_singleton]
  unfold showAll
  simp only [if_pos (h2.2 hn), hr _ h1]
  cases hs : select fuel (w.shuffle 0) s (init s) g needed with
  | error f => simp
  | ok o =>
    cases o with
    | none => simp
    | some r => simp [hp]

/-- After a picture in which no pixel is found, the program does not get beyond the next one, whatever it shows. -/
theorem C159_flat_violated {w : World K} (hs : ∀ k, IsShuffle (w.shuffle k)) {s : Settings K} (hfac : 0 < s.adaptToFactor)
    {a b : Name} (ha : w.arg ≠ []) (hab : a ≤ b) (ea : HasExtension a) (eb : HasExtension b) (hl : w.listing = some [a, b])
    {ga gb : Grad K} (ra : ∀ path, IsPath w.arg a path → w.imread path = some ga)
    (rb : ∀ path, IsPath w.arg b path → w.imread path = some gb) (hb : 0 < gb.rows)
    (hflat : ∀ bs, (counts ga.rows ga.cols ga.px bs 0 s.gradThresholds).sum = 0) {needed : Nat} (hn : 0 < needed) (fuel : Nat) :
    (run w fuel s needed).2 ≠ .finished ∧ (run w fuel s needed).1.length ≤ 1 := by
  obtain ⟨a1, a2⟩ := dirname_spec ha a
  obtain ⟨b1, b2⟩ := dirname_spec ha b
  have hsort : sortedNames [a, b] = [a, b] := by
    have hp : (sortedNames [a, b]).Perm [a, b] := sortedNames_perm _
    exact List.Perm.eq_of_pairwise (le := (· ≤ ·)) (by intro a b _ _ h1 h2; exact le_antisymm h1 h2) (sortedNames_sorted _) (by simp [hab]) hp
  unfold run
  rw [hl]
  simp only [hsort]
  unfold showAll
  simp only [if_pos (a2.2 ea), ra _ a1]
  cases hsel : select fuel (w.shuffle 0) s (init s) ga needed with
  | error f => simp
  | ok o =>
    cases o with
    | none => simp
    | some r =>
      obtain ⟨pts, st'⟩ := r
      simp only
      by_cases hp : prefH ga.rows ga.cols ≤ 0
      · simp [hp]
      · simp only [if_neg hp]
        have hst : select fuel (w.shuffle 1) s st' gb needed = .ok none :=
          C26_never_returns_violated (hs 0) hfac hsel (hflat _) gb hb needed hn fuel
        unfold showAll
        simp only [if_pos (b2.2 eb), rb _ b1, hst]
        simp

end

/-! ## Concrete cases -/

/-- `c.png`, `a.txt` and `b.jpg` in the directory `d`; both images have one bright pixel. -/
def demoWorld : World ℚ where
  arg := [100]
  listing := some [[99, 46, 112, 110, 103], [97, 46, 116, 120, 116], [98, 46, 106, 112, 103]]
  imread := fun _ => some (spike 5)
  shuffle := fun _ _ l => l

theorem prefH_square {n : Nat} (h : 0 < n) : prefH n n = 1200 := by
  unfold prefH Util.truncInt
  have : (n : ℝ) ≠ 0 := by positivity
  rw [div_self this, one_mul, if_pos (by norm_num)]
  exact Int.floor_ofNat 1200

/-- Not vacuous: the program shows `d/b.jpg`, then `d/c.png`, and finishes. -/
example : run demoWorld 5 demoSettings 1 = ([⟨[100, 47, 98, 46, 106, 112, 103], [(0, 0)], 1200⟩, ⟨[100, 47, 99, 46, 112, 110, 103], [(0, 0)], 1200⟩],
    .finished) ∧ (∀ k, IsShuffle (demoWorld.shuffle k)) ∧ demoWorld.arg ≠ [] := by
  refine ⟨?_, fun _ => isShuffle_id, by simp [demoWorld]⟩
  have hsort : sortedNames [[99, 46, 112, 110, 103], [97, 46, 116, 120, 116], [98, 46, 106, 112, 103]] =
      [[97, 46, 116, 120, 116], [98, 46, 106, 112, 103], [99, 46, 112, 110, 103]] :=
    List.Perm.eq_of_pairwise (le := (· ≤ ·)) (by intro a b _ _ h1 h2; exact le_antisymm h1 h2) (sortedNames_sorted _) (by decide +kernel)
      ((sortedNames_perm _).trans (by decide +kernel))
  have hsel : select 5 (fun _ l => l) demoSettings ⟨1, 2⟩ (spike 5) 1 = .ok (some ([(0, 0)], ⟨1, 2⟩)) := C25_filled_with_origin_violated.1
  have hi : init demoSettings = ⟨1, 2⟩ := rfl
  have hh : prefH (spike 5).rows (spike 5).cols = 1200 := prefH_square (by norm_num [spike])
  have i1 : isImage (dirnameOf [100] ++ [97, 46, 116, 120, 116]) = false := by decide +kernel
  have i2 : isImage (dirnameOf [100] ++ [98, 46, 106, 112, 103]) = true := by decide +kernel
  have i3 : isImage (dirnameOf [100] ++ [99, 46, 112, 110, 103]) = true := by decide +kernel
  have d1 : dirnameOf [100] = [100, 47] := by decide +kernel
  simp [run, demoWorld, hsort, showAll, hi, hsel, hh, i1, i2, i3]
  simp [d1]

/-- Not vacuous: the same directory, listed in another order. -/
example : run { demoWorld with listing := some [[97, 46, 116, 120, 116], [98, 46, 106, 112, 103], [99, 46, 112, 110, 103]] } 5 demoSettings 1 =
    run demoWorld 5 demoSettings 1 :=
  C159_order (w := demoWorld) rfl (by decide +kernel) rfl 5 demoSettings 1

/-- Not vacuous: `a.png`, which cannot be read. -/
example : run (⟨[100], some [[97, 46, 112, 110, 103]], fun _ => none, fun _ _ l => l⟩ : World ℚ) 5 demoSettings 1 = ([], .faulty .exception) :=
  C159_unreadable_violated (by simp) ⟨[97], Or.inr rfl⟩ rfl (fun _ _ => rfl) 5 demoSettings 1

/-- Not vacuous: a picture of 1201 by 1 pixels. -/
example : (run (⟨[100], some [[97, 46, 112, 110, 103]], fun _ => some ⟨1, 1201, fun _ _ => 0⟩, fun _ _ l => l⟩ : World ℚ) 5 demoSettings 1).1 = [] :=
  (C159_wide_violated (by simp) ⟨[97], Or.inr rfl⟩ rfl (fun _ _ => rfl) (by norm_num) 5 demoSettings 1).1

/-- Not vacuous: a flat picture `a.png` and one with a bright pixel `b.png`. -/
example (fuel : Nat) : (run (⟨[100], some [[97, 46, 112, 110, 103], [98, 46, 112, 110, 103]],
    fun p => if p = [100, 47, 97, 46, 112, 110, 103] then some flat else some (spike 5), fun _ _ l => l⟩ : World ℚ) fuel demoSettings 1).2 ≠
      .finished := by
  have path : ∀ n p, IsPath [100] n p → p = [100, 47] ++ n := by
    rintro n p (⟨d, h, rfl⟩ | ⟨-, rfl⟩)
    · rcases d with _ | ⟨x, d⟩
      · simp [slash] at h
      · simp at h
    · rfl
  refine (C159_flat_violated (ga := flat) (gb := spike 5) (a := [97, 46, 112, 110, 103]) (b := [98, 46, 112, 110, 103]) (fun _ => isShuffle_id)
    (by norm_num [demoSettings]) (by simp) (by decide +kernel) ⟨[97], Or.inr rfl⟩ ⟨[98], Or.inr rfl⟩ rfl ?_ ?_ (by norm_num [spike]) ?_
    (by norm_num) fuel).1
  · intro p hp; rw [path _ _ hp]; rfl
  · intro p hp; rw [path _ _ hp]; rfl
  · intro bs
    have hz : ∀ (b : Nat) (t : ℚ), 0 ≤ t → strongCount flat.rows flat.cols flat.px b t = 0 := by
      intro b t ht
      unfold strongCount
      classical
      rw [Finset.card_eq_zero, Finset.filter_eq_empty_iff]
      rintro q - ⟨-, -, y, x, -, -, h⟩
      simp only [mean, flat, Finset.sum_const_zero, zero_div, zero_add] at h
      linarith
    simp [demoSettings, counts, hz]

end Mdso.SelectPix
