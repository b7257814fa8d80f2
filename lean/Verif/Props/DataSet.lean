import Verif.Spec.DataSet
import Verif.Props.CameraModel
import Verif.Props.Reader
import Mathlib.Data.Nat.Digits.Lemmas

/-!
# Properties of the files of a data set: C111–C113
-/

set_option autoImplicit false

namespace Mdso.Reader

open Mdso.Geom

/-! ## C111: file names -/

/-- The number written with decimal digits. -/
def value (l : List Char) : Nat := l.foldl (fun acc c => 10 * acc + (c.toNat - 48)) 0

theorem digitChar_toNat {d : Nat} (h : d < 10) : (Nat.digitChar d).toNat = 48 + d := by
  interval_cases d <;> rfl

theorem value_append (a b : List Char) : value (a ++ b) = value a * 10 ^ b.length + value b := by
  unfold value
  rw [List.foldl_append]
  generalize List.foldl (fun acc c => 10 * acc + (c.toNat - 48)) 0 a = k
  suffices ∀ k m : Nat, List.foldl (fun acc c => 10 * acc + (Char.toNat c - 48)) (k + m) b
      = k * 10 ^ b.length + List.foldl (fun acc c => 10 * acc + (Char.toNat c - 48)) m b by
    have := this k 0
    simpa using this
  induction b with
  | nil => simp
  | cons c b ih =>
    intro k m
    simp only [List.foldl_cons, List.length_cons]
    rw [show 10 * (k + m) + (c.toNat - 48) = 10 * k + (10 * m + (c.toNat - 48)) by ring, ih, pow_succ]
    ring

theorem value_digits (n : Nat) : value (digits n) = n := by
  unfold digits
  have hlt := fun d => Nat.digits_lt_base (b := 10) (m := n) (d := d) (by norm_num)
  have hn := Nat.ofDigits_digits 10 n
  suffices ∀ l : List Nat, (∀ d ∈ l, d < 10) → value ((l.map Nat.digitChar).reverse) = Nat.ofDigits 10 l by
    rw [this _ (fun d hd => hlt d hd), hn]
  intro l
  induction l with
  | nil => intro _; rfl
  | cons d l ih =>
    intro h
    rw [List.map_cons, List.reverse_cons, value_append, ih (fun x hx => h x (by simp [hx])), Nat.ofDigits_cons]
    simp only [List.length_singleton, pow_one, value, List.foldl_cons, List.foldl_nil, digitChar_toNat (h d (by simp))]
    push_cast
    omega

theorem value_pad (k n : Nat) : value (pad k (digits n)) = n := by
  unfold pad
  rw [value_append, value_digits]
  have : ∀ m, value (List.replicate m '0') = 0 := by
    intro m
    induction m with
    | zero => rfl
    | succ m ih =>
      rw [List.replicate_succ', value_append, ih]
      rfl
  rw [this]
  simp

theorem pad_digit {k n : Nat} {c : Char} (h : c ∈ pad k (digits n)) : c.isDigit = true := by
  unfold pad at h
  rcases List.mem_append.1 h with h | h
  · rw [List.eq_of_mem_replicate h]; rfl
  · unfold digits at h
    rw [List.mem_reverse] at h
    obtain ⟨d, hd, rfl⟩ := List.mem_map.1 h
    have := Nat.digits_lt_base (b := 10) (by norm_num) hd
    interval_cases d <;> rfl

theorem fmt04_injective {m n : Int} (h : fmt04 m = fmt04 n) : m = n := by
  unfold fmt04 at h
  have nd : ∀ (k : Nat) (j : Nat) (l : List Char), '-' :: l ≠ pad k (digits j) := by
    intro k j l he
    have : ('-').isDigit = true := pad_digit (k := k) (n := j) (by rw [← he]; simp)
    revert this
    decide
  split at h <;> split at h
  · have := congrArg value (List.cons.inj h).2
    rw [value_pad, value_pad] at this
    omega
  · exact absurd h (nd _ _ _)
  · exact absurd h.symm (nd _ _ _)
  · have := congrArg value h
    rw [value_pad, value_pad] at this
    omega

theorem sprintf_ok {s t : List Char} (h : sprintf256 s = .ok t) : t = s := by
  unfold sprintf256 at h
  split at h
  · cases h; rfl
  · cases h

/-- C111: two frames never share a picture or a file of depths. -/
theorem C111_distinct {d : List Char} {m n : Int} (hne : m ≠ n) {a b : List Char} :
    (frameFName d m = .ok a → frameFName d n = .ok b → a ≠ b) ∧ (depthsFName d m = .ok a → depthsFName d n = .ok b → a ≠ b) := by
  constructor
  · intro h1 h2 he
    rw [sprintf_ok h1, sprintf_ok h2, List.append_left_inj, List.append_right_inj] at he
    exact hne (fmt04_injective he)
  · intro h1 h2 he
    rw [sprintf_ok h1, sprintf_ok h2, List.append_left_inj, List.append_right_inj] at he
    exact hne (fmt04_injective he)

/-- C111: a frame number below 10000 is written with exactly four digits, which denote it. -/
theorem C111_four_digits {n : Nat} (h : n < 10000) :
    (fmt04 n).length = 4 ∧ (∀ c ∈ fmt04 n, c.isDigit = true) ∧ value (fmt04 n) = n := by
  have hf : fmt04 n = pad 4 (digits n) := by
    unfold fmt04
    rw [if_neg (by omega)]
    rfl
  rw [hf]
  refine ⟨?_, fun c hc => pad_digit hc, value_pad _ _⟩
  have hl : (digits n).length ≤ 4 := by
    unfold digits
    rw [List.length_reverse, List.length_map]
    by_contra hcon
    have := (Nat.lt_digits_length_iff (b := 10) (k := 4) (by norm_num) n).1 (by omega)
    omega
  unfold pad
  rw [List.length_append, List.length_replicate]
  omega

/-- C111: a slash at the end of the directory makes no difference. -/
theorem C111_slash {d : List Char} (h : d ≠ []) (hs : d.getLast? ≠ some '/') : datasetDir (d ++ ['/']) = .ok d ∧ datasetDir d = .ok d := by
  constructor
  · simp [datasetDir]
  · unfold datasetDir
    cases hl : d.getLast? with
    | none => exact absurd (List.getLast?_eq_none_iff.1 hl) h
    | some c =>
      split
      · rename_i heq; cases heq
      · rename_i heq; cases heq; exact absurd hl hs
      · rfl

theorem fmt04_length (n : Int) (h : n.natAbs < 10 ^ 10) : (fmt04 n).length ≤ 11 := by
  have hl : (digits n.natAbs).length ≤ 10 := by
    unfold digits
    rw [List.length_reverse, List.length_map]
    by_contra hcon
    have := (Nat.lt_digits_length_iff (b := 10) (k := 10) (by norm_num) n.natAbs).1 (by omega)
    omega
  unfold fmt04 pad
  split
  · rw [List.length_cons, List.length_append, List.length_replicate]; omega
  · rw [List.length_append, List.length_replicate]; omega

/-- C111, in part: for directories of at most 221 characters all names fit into the buffers, for every frame number of type `int`. -/
theorem C111_fits_partial {d : List Char} (h : d.length ≤ 221) (n : Int) (hn : n.natAbs ≤ 2 ^ 31) :
    camFName d = .ok (d ++ "/info/intrinsics.txt".toList) ∧ posesFName d = .ok (d ++ "/info/groundtruth.txt".toList) ∧
    frameFName d n = .ok (d ++ "/data/img/img".toList ++ fmt04 n ++ "_0.png".toList) ∧
    depthsFName d n = .ok (d ++ "/data/depth/img".toList ++ fmt04 n ++ "_0.depth".toList) := by
  have hf := fmt04_length n (by omega)
  have l1 : "/info/intrinsics.txt".toList.length = 20 := by decide
  have l2 : "/info/groundtruth.txt".toList.length = 21 := by decide
  have l3 : "/data/img/img".toList.length = 13 := by decide
  have l4 : "_0.png".toList.length = 6 := by decide
  have l5 : "/data/depth/img".toList.length = 15 := by decide
  have l6 : "_0.depth".toList.length = 8 := by decide
  refine ⟨if_pos ?_, if_pos ?_, if_pos ?_, if_pos ?_⟩
  · rw [List.length_append, l1]; omega
  · rw [List.length_append, l2]; omega
  · rw [List.length_append, List.length_append, List.length_append, l3, l4]; omega
  · rw [List.length_append, List.length_append, List.length_append, l5, l6]; omega

/-- C111 is violated: for a longer directory (236 characters without a slash at the end) the constructor writes beyond its buffer, whatever is on
the disk. -/
theorem C111_long_violated {N I G : Type} (e : CamEnv) (toks : List Char → List Cam.Tok) (one : G) (mk : List N → G) (disk : Disk N I)
    (fuel : Nat) {d : List Char} (h : 237 ≤ d.length) : construct e toks one mk disk fuel d = .error .ub := by
  unfold construct
  have hd : ∃ d', datasetDir d = .ok d' ∧ 236 ≤ d'.length := by
    unfold datasetDir
    cases hl : d.getLast? with
    | none => rw [List.getLast?_eq_none_iff] at hl; subst hl; simp at h
    | some c =>
      split
      · rename_i heq; cases heq
      · exact ⟨_, rfl, by rw [List.length_dropLast]; omega⟩
      · exact ⟨_, rfl, by omega⟩
  obtain ⟨d', h1, h2⟩ := hd
  have l1 : "/info/intrinsics.txt".toList.length = 20 := by decide
  have : camFName d' = .error .ub := if_neg (by rw [List.length_append, l1]; omega)
  simp only [h1, this, bind, Except.bind]

/-! ## C112: depths -/

theorem extracts_values {N : Type} (k : Nat) (s : Stream N) (he : s.eof = false) (hf : s.fail = false) (vs : List N) (hl : vs.length = k)
    (rest : List (Option N)) (ht : s.tokens = vs.map some ++ rest) : (Stream.extracts k s).2 = vs.map some := by
  induction k generalizing s vs with
  | zero => rw [List.length_eq_zero_iff.1 hl]; rfl
  | succ k ih =>
    cases vs with
    | nil => cases hl
    | cons v vs =>
      simp only [List.length_cons, Nat.add_right_cancel_iff] at hl
      have hx : s.extract = ({ s with tokens := vs.map some ++ rest, eof := (vs.map some ++ rest).isEmpty && !s.trailingSpace }, some v) := by
        unfold Stream.extract
        rw [he, hf, ht]
        rfl
      simp only [Stream.extracts, hx, List.map_cons]
      congr 1
      cases vs with
      | nil =>
        simp only [List.length_nil] at hl
        subst hl
        rfl
      | cons v' vs' =>
        exact ih { s with tokens := (v' :: vs').map some ++ rest, eof := ((v' :: vs').map some ++ rest).isEmpty && !s.trailingSpace }
          (by simp) hf _ hl rfl

theorem extracts_length {N : Type} (k : Nat) (s : Stream N) : (Stream.extracts k s).2.length = k := by
  induction k generalizing s with
  | zero => rfl
  | succ k ih => simp [Stream.extracts, ih]

/-- After a failure nothing is assigned any more. -/
theorem extracts_failed {N : Type} (k : Nat) (s : Stream N) (h : s.eof = true ∨ s.fail = true) : ∀ v ∈ (Stream.extracts k s).2, v = none := by
  induction k generalizing s with
  | zero => simp [Stream.extracts]
  | succ k ih =>
    have hx : s.extract = ({ s with fail := true }, none) := by
      unfold Stream.extract
      rw [if_pos (by rcases h with h | h <;> simp [h])]
    simp only [Stream.extracts, hx, List.mem_cons]
    rintro v (rfl | hv)
    · rfl
    · exact ih _ (Or.inr rfl) v hv

/-- With fewer numbers than extractions the last one assigns nothing. -/
theorem extracts_short {N : Type} (k : Nat) (s : Stream N) (h : s.tokens.length ≤ k) : (Stream.extracts (k + 1) s).2[k]? = some none := by
  induction k generalizing s with
  | zero =>
    have : s.extract.2 = none := by
      unfold Stream.extract
      split
      · rfl
      · rw [List.length_eq_zero_iff.1 (Nat.le_zero.1 h)]
    simp [Stream.extracts, this]
  | succ k ih =>
    show (s.extract.2 :: (Stream.extracts (k + 1) s.extract.1).2)[k + 1]? = some none
    rw [List.getElem?_cons_succ]
    cases hs : (s.eof || s.fail) with
    | true =>
      have hx : s.extract.1 = { s with fail := true } := by unfold Stream.extract; rw [if_pos hs]
      have := extracts_failed (k + 1) s.extract.1 (Or.inr (by rw [hx]))
      have hl := extracts_length (k + 1) s.extract.1
      rw [List.getElem?_eq_getElem (by omega)]
      exact congrArg some (this _ (List.getElem_mem _))
    | false =>
      cases ht : s.tokens with
      | nil =>
        have hx : s.extract.1.fail = true := by unfold Stream.extract; rw [if_neg (by simp [hs]), ht]
        have := extracts_failed (k + 1) s.extract.1 (Or.inr hx)
        have hl := extracts_length (k + 1) s.extract.1
        rw [List.getElem?_eq_getElem (by omega)]
        exact congrArg some (this _ (List.getElem_mem _))
      | cons a rest =>
        cases a with
        | none =>
          have hx : s.extract.1.fail = true := by unfold Stream.extract; rw [if_neg (by simp [hs]), ht]
          have := extracts_failed (k + 1) s.extract.1 (Or.inr hx)
          have hl := extracts_length (k + 1) s.extract.1
          rw [List.getElem?_eq_getElem (by omega)]
          exact congrArg some (this _ (List.getElem_mem _))
        | some n =>
          have hx : s.extract.1.tokens = rest := by unfold Stream.extract; rw [if_neg (by simp [hs]), ht]
          refine ih _ ?_
          rw [hx]
          rw [ht, List.length_cons] at h
          omega

/-- C112, in part: if the file holds enough numbers and nothing else comes before their end, the matrix has the size of the camera's pictures and
row `y`, column `x` is number `y * width + x` of the file. Missing: files with fewer numbers, see `C112_short_violated`. -/
theorem C112_depths_partial {N I G : Type} {disk : Disk N I} {r : MultiFovReader G} {n : Int} {vs : List ℝ} {rest : List (Option ℝ)} {sp : Bool}
    {name : List Char} (hname : depthsFName r.dir n = .ok name) (hfile : disk.numbers name = some (vs.map some ++ rest, sp))
    (hlen : vs.length = r.cam.height * r.cam.width) :
    ∃ m, getDepths disk r n = .ok m ∧ m.rows = r.cam.height ∧ m.cols = r.cam.width ∧
      ∀ y x, y < r.cam.height → x < r.cam.width → m.px y x = vs[y * r.cam.width + x]? ∧ (m.px y x).isSome := by
  have he := extracts_values (r.cam.height * r.cam.width) (Stream.open (vs.map some ++ rest) sp) rfl rfl vs hlen rest rfl
  refine ⟨depthsOf r.cam (vs.map some ++ rest) sp, ?_, rfl, ?_, ?_⟩
  · simp only [getDepths, hname, hfile, bind, Except.bind]
  · rfl
  · intro y x hy hx
    have hlt : y * r.cam.width + x < vs.length := by
      rw [hlen]
      calc y * r.cam.width + x < y * r.cam.width + r.cam.width := by omega
        _ = (y + 1) * r.cam.width := by ring
        _ ≤ _ := Nat.mul_le_mul_right _ hy
    simp only [depthsOf, he, List.getElem?_map, List.getElem?_eq_getElem hlt, Option.map_some, Option.join]
    exact ⟨rfl, rfl⟩

/-- C112 is violated: if the file holds fewer numbers, `getDepths` reports nothing, and no number is assigned to the last pixel. -/
theorem C112_short_violated {N I G : Type} {disk : Disk N I} {r : MultiFovReader G} {n : Int} {tokens : List (Option ℝ)} {sp : Bool}
    {name : List Char} (hname : depthsFName r.dir n = .ok name) (hfile : disk.numbers name = some (tokens, sp))
    (hlen : tokens.length < r.cam.height * r.cam.width) :
    ∃ m, getDepths disk r n = .ok m ∧ m.px (r.cam.height - 1) (r.cam.width - 1) = none := by
  obtain ⟨k, hk⟩ : ∃ k, r.cam.height * r.cam.width = k + 1 := ⟨r.cam.height * r.cam.width - 1, by omega⟩
  have he := extracts_short k (Stream.open tokens sp) (show tokens.length ≤ k by omega)
  refine ⟨depthsOf r.cam tokens sp, ?_, ?_⟩
  · simp only [getDepths, hname, hfile, bind, Except.bind]
  · have hi : (r.cam.height - 1) * r.cam.width + (r.cam.width - 1) = k := by
      have h1 : 0 < r.cam.height := by rcases Nat.eq_zero_or_pos r.cam.height with h | h; · rw [h] at hk; omega
                                       · exact h
      have h2 : 0 < r.cam.width := by rcases Nat.eq_zero_or_pos r.cam.width with h | h; · rw [h] at hk; omega
                                      · exact h
      obtain ⟨a, ha⟩ : ∃ a, r.cam.height = a + 1 := ⟨r.cam.height - 1, by omega⟩
      rw [ha] at hk ⊢
      rw [Nat.add_mul] at hk
      simp only [Nat.add_sub_cancel]
      omega
    simp only [depthsOf, hi, hk, he]
    rfl

/-- C112: a missing file is reported. -/
theorem C112_missing {N I G : Type} {disk : Disk N I} {r : MultiFovReader G} {n : Int} :
    (∀ name, depthsFName r.dir n = .ok name → disk.numbers name = none → getDepths disk r n = .error .exception) ∧
    (∀ name, frameFName r.dir n = .ok name → disk.pictures name = none → getFrame disk r n = .error .exception) := by
  constructor
  · intro name h1 h2
    simp only [getDepths, h1, h2, bind, Except.bind]
  · intro name h1 h2
    simp only [getFrame, h1, h2, bind, Except.bind]

/-- C112: a frame is the picture of its file. -/
theorem C112_frame {N I G : Type} {disk : Disk N I} {r : MultiFovReader G} {n : Int} {img : I} :
    getFrame disk r n = .ok img ↔
      disk.pictures (r.dir ++ "/data/img/img".toList ++ fmt04 n ++ "_0.png".toList) = some img ∧
        (r.dir ++ "/data/img/img".toList ++ fmt04 n ++ "_0.png".toList).length < 256 := by
  unfold getFrame frameFName sprintf256
  split
  · rename_i hlt
    simp only [bind, Except.bind]
    cases disk.pictures (r.dir ++ "/data/img/img".toList ++ fmt04 n ++ "_0.png".toList) with
    | none => simp
    | some i =>
      simp only [Except.ok.injEq, Option.some.injEq]
      constructor
      · exact fun h => ⟨h, by omega⟩
      · exact fun h => h.1
  · rename_i hlt
    simp only [bind, Except.bind]
    constructor
    · intro h; cases h
    · rintro ⟨-, h⟩; omega

/-! ## C113: the camera -/

theorem readDouble_num {t : Cam.Tok} {x : ℝ} (h : Denotes t x) (rest : List Cam.Tok) :
    Cam.readDouble ⟨t :: rest, true⟩ = (some x, ⟨rest, true⟩) := by
  cases h <;> rfl

theorem readDoubles_num {ts : List Cam.Tok} {xs : List ℝ} (h : List.Forall₂ Denotes ts xs) (rest : List Cam.Tok) :
    readDoubles ts.length ⟨ts ++ rest, true⟩ = (xs.map some, ⟨rest, true⟩) := by
  induction h with
  | nil => rfl
  | cons h1 _ ih =>
    simp only [List.length_cons, List.cons_append, readDoubles, readDouble_num h1, ih, List.map_cons]

theorem lineParams_ok {w h : Nat} {ts rest : List Cam.Tok} {xs : List ℝ} (hd : List.Forall₂ Denotes ts xs) (hl : ts.length = 7) :
    lineParams (.int w :: .int h :: ts ++ rest) = .ok (w, h, xs) := by
  have hr := readDoubles_num hd rest
  rw [hl] at hr
  have hf : (xs.map some).filterMap id = xs := by
    rw [List.filterMap_map]
    simp
  simp only [lineParams, Cam.readInt, List.cons_append, if_true, hr, hf]
  rw [if_pos ⟨by omega, by omega⟩, if_pos (by simp)]
  simp

theorem camOfLine_params {e : CamEnv} {toks : List Char → List Cam.Tok} {line : List Char} (h3 : 3 ≤ line.length)
    (hK : line.take 3 ≠ "K =".toList) {w h : Nat} {ts rest : List Cam.Tok} {a0 a1 a2 a3 a4 cx cy : ℝ}
    (ht : toks line = .int w :: .int h :: ts ++ rest) (hd : List.Forall₂ Denotes ts [a0, a1, a2, a3, a4, cx, cy]) :
    camOfLine e toks line = Cam.ofPoly e.solve e.deg e.samples w h 1 ⟨cx, cy⟩ [a0 * -1, a2 * -1, a3 * -1, a4 * -1] := by
  unfold camOfLine
  rw [if_neg (by omega), if_neg hK, ht, lineParams_ok hd (by rw [hd.length_eq]; rfl)]
  rfl

theorem ray_affine (a0 a2 a3 a4 cx cy : ℝ) (p : V2) :
    CamSpec.ray 1 ⟨cx, cy⟩ (a0 * -1) [a2 * -1, a3 * -1, a4 * -1] p = sensorRay ⟨cx, cy⟩ a0 0 a2 a3 a4 p := by
  unfold CamSpec.ray sensorRay CamSpec.depthPoly CamSpec.normalisedPixel
  simp only [div_one, List.length_cons, List.length_nil, Finset.sum_range_succ, Finset.sum_range_zero]
  ext
  · rfl
  · rfl
  · simp
    ring

theorem ofPoly_size {e : CamEnv} {w h : Nat} {s : ℝ} {k : V2} {cs : List ℝ} {c : Cam.Cam}
    (hc : Cam.ofPoly e.solve e.deg e.samples w h s k cs = .ok c) : c.width = w ∧ c.height = h := by
  obtain ⟨p0, ps, -, hs⟩ := Cam.ofPoly_ok hc
  obtain ⟨g, -, -, rfl⟩ := Cam.setMap_ok hs
  exact ⟨rfl, rfl⟩

/-- C113, in part: if the second coefficient is 0, the camera has the size written in the file and gives every pixel the direction that the
coefficients mean. Missing: other second coefficients, see `C113_linear_violated`. -/
theorem C113_omni_partial {e : CamEnv} {toks : List Char → List Cam.Tok} {line : List Char} (h3 : 3 ≤ line.length)
    (hK : line.take 3 ≠ "K =".toList) {w h : Nat} (hw : 0 < w) {ts rest : List Cam.Tok} {a0 a2 a3 a4 cx cy : ℝ}
    (ht : toks line = .int w :: .int h :: ts ++ rest) (hd : List.Forall₂ Denotes ts [a0, 0, a2, a3, a4, cx, cy]) {c : Cam.Cam}
    (hc : camOfLine e toks line = .ok c) :
    c.width = w ∧ c.height = h ∧ ∀ p, SameDirection (Cam.unmap c p) (sensorRay ⟨cx, cy⟩ a0 0 a2 a3 a4 p) := by
  rw [camOfLine_params h3 hK ht hd] at hc
  refine ⟨(ofPoly_size hc).1, (ofPoly_size hc).2, fun p => ?_⟩
  obtain ⟨k, hk, hall⟩ := Cam.C39_rays hw one_pos hc
  exact ⟨k, hk, by rw [hall, ray_affine]⟩

/-- C113 is violated: with any other second coefficient every pixel but the center gets a wrong direction. -/
theorem C113_linear_violated {e : CamEnv} {toks : List Char → List Cam.Tok} {line : List Char} (h3 : 3 ≤ line.length)
    (hK : line.take 3 ≠ "K =".toList) {w h : Nat} (hw : 0 < w) {ts rest : List Cam.Tok} {a0 a1 a2 a3 a4 cx cy : ℝ} (h1 : a1 ≠ 0)
    (ht : toks line = .int w :: .int h :: ts ++ rest) (hd : List.Forall₂ Denotes ts [a0, a1, a2, a3, a4, cx, cy]) {c : Cam.Cam}
    (hc : camOfLine e toks line = .ok c) (p : V2) (hp : p ≠ ⟨cx, cy⟩) :
    ¬ SameDirection (Cam.unmap c p) (sensorRay ⟨cx, cy⟩ a0 a1 a2 a3 a4 p) := by
  rw [camOfLine_params h3 hK ht hd] at hc
  obtain ⟨k, hk, hall⟩ := Cam.C39_rays hw one_pos hc
  rintro ⟨l, hl, he⟩
  rw [hall, ray_affine] at he
  have hx := congrArg V3.x he
  have hy := congrArg V3.y he
  have hz := congrArg V3.z he
  unfold sensorRay at hx hy hz
  simp only [V3.smul_x, V3.smul_y, V3.smul_z] at hx hy hz
  obtain ⟨ρ, hρ⟩ : ∃ ρ, ρ = CamSpec.len ⟨p.x - cx, p.y - cy⟩ := ⟨_, rfl⟩
  have hne : p.x - cx ≠ 0 ∨ p.y - cy ≠ 0 := by
    by_contra hcon
    push Not at hcon
    apply hp
    ext
    · simpa using sub_eq_zero.1 hcon.1
    · simpa using sub_eq_zero.1 hcon.2
  have hkl : k = l := by
    rcases hne with h | h
    · exact mul_right_cancel₀ h hx
    · exact mul_right_cancel₀ h hy
  subst hkl
  have hpos : 0 < ρ := by
    rw [hρ]
    unfold CamSpec.len
    apply Real.sqrt_pos.2
    rcases hne with h | h
    · have := sq_pos_of_ne_zero h; simp only; positivity
    · have := sq_pos_of_ne_zero h; simp only; positivity
  rw [← hρ] at hz
  have := mul_left_cancel₀ hk.ne' hz
  have h0 : a1 * ρ = 0 := by linarith
  rcases mul_eq_zero.1 h0 with h | h
  · exact h1 h
  · exact hpos.ne' h

/-- C113, in part: a file that begins with "K =" gives the pinhole camera of the data set. Missing: it is this camera whatever matrix
follows, see `C113_matrix_violated`. -/
theorem C113_pinhole_partial {e : CamEnv} {toks : List Char → List Cam.Tok} {line : List Char} (hK : line.take 3 = "K =".toList)
    {c : Cam.Cam} (hc : camOfLine e toks line = .ok c) :
    c.width = 640 ∧ c.height = 480 ∧ ∀ p, SameDirection (Cam.unmap c p) ⟨p.x - 320, p.y - 240, 329.115520046⟩ := by
  have h3 : ¬ line.length < 3 := by
    intro h
    have := congrArg List.length hK
    rw [List.length_take] at this
    simp at this
    omega
  unfold camOfLine at hc
  rw [if_neg h3, if_pos hK] at hc
  have hp : Cam.ofPoly e.solve e.deg e.samples 640 480 1 ⟨320, 240⟩ [pinholeF] = .ok c := hc
  refine ⟨(ofPoly_size hp).1, (ofPoly_size hp).2, fun p => ?_⟩
  obtain ⟨k, hk, hall⟩ := Cam.C39_rays (by norm_num) one_pos hp
  refine ⟨k, hk, ?_⟩
  rw [hall]
  congr 1
  unfold CamSpec.ray CamSpec.depthPoly CamSpec.normalisedPixel pinholeF
  ext <;> simp

/-- C113 is violated: what follows "K =" is not read. -/
theorem C113_matrix_violated (e : CamEnv) (toks : List Char → List Cam.Tok) (matrix matrix' : List Char) :
    camOfLine e toks ("K =".toList ++ matrix) = camOfLine e toks ("K =".toList ++ matrix') := by
  have h : ∀ m : List Char, camOfLine e toks ("K =".toList ++ m) = Cam.ofPinhole e.solve e.deg e.samples 640 480 pinholeF 320 240 := by
    intro m
    have hl : "K =".toList.length = 3 := by decide
    unfold camOfLine
    rw [if_neg (by rw [List.length_append, hl]; omega), if_pos (by rw [← hl, List.take_left])]
  rw [h, h]

theorem readDoubles_short (k : Nat) {ts : List Cam.Tok} (h : ts.length ≤ k) : none ∈ (readDoubles (k + 1) ⟨ts, true⟩).1 ∨
    ∃ t ∈ ts, t = .bad := by
  induction k generalizing ts with
  | zero =>
    rw [List.length_eq_zero_iff.1 (Nat.le_zero.1 h)]
    left
    simp [readDoubles, Cam.readDouble]
  | succ k ih =>
    cases ts with
    | nil => left; rw [readDoubles]; simp [Cam.readDouble]
    | cons t ts =>
      rw [List.length_cons] at h
      have := ih (ts := ts) (by omega)
      cases t with
      | bad => exact Or.inr ⟨_, by simp, rfl⟩
      | real x =>
        rcases this with h | ⟨t, h, rfl⟩
        · left; rw [readDoubles]; simp only [Cam.readDouble, if_true, List.mem_cons]; exact Or.inr h
        · exact Or.inr ⟨_, by simp [h], rfl⟩
      | int n =>
        rcases this with h | ⟨t, h, rfl⟩
        · left; rw [readDoubles]; simp only [Cam.readDouble, if_true, List.mem_cons]; exact Or.inr h
        · exact Or.inr ⟨_, by simp [h], rfl⟩

/-- C113 is violated: a line with the size and fewer than seven numbers is not refused: the camera is made of variables that were never assigned. -/
theorem C113_short_violated {e : CamEnv} {toks : List Char → List Cam.Tok} {line : List Char} (h3 : 3 ≤ line.length)
    (hK : line.take 3 ≠ "K =".toList) {w h : Nat} {ts : List Cam.Tok} {xs : List ℝ}
    (ht : toks line = .int w :: .int h :: ts) (hd : List.Forall₂ Denotes ts xs) (hl : xs.length < 7) :
    camOfLine e toks line = .error .ub := by
  have hb : ¬ ∃ t ∈ ts, t = .bad := by
    rintro ⟨t, hm, rfl⟩
    clear ht hl
    induction hd with
    | nil => simp at hm
    | cons h1 _ ih =>
      rcases List.mem_cons.1 hm with he | hm
      · rw [← he] at h1; cases h1
      · exact ih hm
  have hn := (readDoubles_short 6 (ts := ts) (by rw [hd.length_eq]; omega)).resolve_right hb
  have hall : ¬ (readDoubles 7 ⟨ts, true⟩).1.all Option.isSome = true := by
    intro h
    have := List.all_eq_true.1 h _ hn
    cases this
  have hp : lineParams (.int w :: .int h :: ts) = .error .ub := by
    simp only [lineParams, Cam.readInt, if_true]
    rw [if_pos ⟨by omega, by omega⟩, if_neg hall]
  unfold camOfLine
  rw [if_neg (by omega), if_neg hK, ht, hp]
  rfl

/-- C113: what the constructor reports: a file that cannot be opened, an empty one and a first line that is too short. -/
theorem C113_reports {N I G : Type} (e : CamEnv) (toks : List Char → List Cam.Tok) (one : G) (mk : List N → G) (disk : Disk N I) (fuel : Nat)
    {newDir d : List Char} (hd : datasetDir newDir = .ok d) (hl : d.length ≤ 221) :
    (disk.lines (d ++ "/info/intrinsics.txt".toList) = none → construct e toks one mk disk fuel newDir = .error .exception) ∧
    (disk.lines (d ++ "/info/intrinsics.txt".toList) = some [] → construct e toks one mk disk fuel newDir = .error .exception) ∧
    (∀ line more, disk.lines (d ++ "/info/intrinsics.txt".toList) = some (line :: more) → line.length < 3 →
      construct e toks one mk disk fuel newDir = .error .exception) ∧
    (∀ line more c, disk.lines (d ++ "/info/intrinsics.txt".toList) = some (line :: more) → camOfLine e toks line = .ok c →
      disk.poses (d ++ "/info/groundtruth.txt".toList) = none → construct e toks one mk disk fuel newDir = .error .exception) ∧
    (∀ r, construct e toks one mk disk fuel newDir = .ok (some r) → ∃ line more tokens sp,
      disk.lines (d ++ "/info/intrinsics.txt".toList) = some (line :: more) ∧ camOfLine e toks line = .ok r.cam ∧
      disk.poses (d ++ "/info/groundtruth.txt".toList) = some (tokens, sp) ∧ worldToFrameGT one mk tokens sp fuel = some r.table ∧
      r.dir = d) := by
  obtain ⟨hcam, hposes, -, -⟩ := C111_fits_partial hl 0 (by decide)
  refine ⟨?_, ?_, ?_, ?_, ?_⟩
  · intro h
    simp only [construct, hd, hcam, h, bind, Except.bind]
  · intro h
    simp only [construct, hd, hcam, h, bind, Except.bind]
  · intro line more h h3
    have : camOfLine e toks line = .error .exception := by unfold camOfLine; rw [if_pos h3]
    simp only [construct, hd, hcam, h, this, bind, Except.bind]
  · intro line more c h hc hp
    simp only [construct, hd, hcam, h, hc, hposes, hp, bind, Except.bind]
  · intro r hr
    simp only [construct, hd, hcam, hposes, bind, Except.bind] at hr
    cases hlines : disk.lines (d ++ "/info/intrinsics.txt".toList) with
    | none => rw [hlines] at hr; cases hr
    | some ls =>
      cases ls with
      | nil => rw [hlines] at hr; cases hr
      | cons line more =>
        rw [hlines] at hr
        simp only at hr
        cases hc : camOfLine e toks line with
        | error x => rw [hc] at hr; cases hr
        | ok c =>
          rw [hc] at hr
          simp only at hr
          cases hp : disk.poses (d ++ "/info/groundtruth.txt".toList) with
          | none => rw [hp] at hr; cases hr
          | some tp =>
            rw [hp] at hr
            simp only [Except.ok.injEq, Option.map_eq_some_iff] at hr
            obtain ⟨t, ht, rfl⟩ := hr
            exact ⟨line, more, tp.1, tp.2, rfl, hc, rfl, ht, rfl⟩

/-! ## Concrete cases -/

/-- A calibration line as in the data set, and its tokens. -/
noncomputable def exToks (line : List Char) : List Cam.Tok :=
  if line = "640 480".toList then [.int 640, .int 480]
  else [.int 640, .int 480, .real (-179.5), .int 0, .real (0.002), .int 0, .int 0, .int 320, .int 240]

noncomputable def exCamEnv : CamEnv := ⟨fun _ _ => (0, []), 0, []⟩

theorem exLine : ∃ c, camOfLine exCamEnv exToks "640 480 -179.5 0 0.002 0 0 320 240".toList = .ok c := by
  have ht : exToks "640 480 -179.5 0 0.002 0 0 320 240".toList
      = .int ((640 : Nat) : Int) :: .int ((480 : Nat) : Int) :: [.real (-179.5), .int 0, .real (0.002), .int 0, .int 0, .int 320, .int 240] ++ [] := by
    unfold exToks; rw [if_neg (by decide)]; rfl
  rw [camOfLine_params (by decide) (by decide) ht (by
    refine .cons (.real _) (.cons (.int 0) (.cons (.real _) (.cons (.int 0) (.cons (.int 0) (.cons (.int 320) (.cons (.int 240) .nil))))))) ]
  unfold Cam.ofPoly Cam.setMapPolyCoeffs exCamEnv
  simp [Cam.nonDecreasing]

example : fmt04 7 = "0007".toList ∧ fmt04 12345 = "12345".toList ∧ fmt04 (-5) = "-005".toList := by
  refine ⟨?_, ?_, ?_⟩ <;> norm_num [fmt04, pad, digits] <;> decide

example : (frameFName "fishEye/".toList.dropLast 12).toOption = some "fishEye/data/img/img0012_0.png".toList := by
  norm_num [frameFName, sprintf256, fmt04, pad, digits, Except.toOption, Nat.digitChar]
  decide

/-- The hypotheses of `C113_omni_partial` are met. -/
example : ∃ c, camOfLine exCamEnv exToks "640 480 -179.5 0 0.002 0 0 320 240".toList = .ok c ∧ c.width = 640 ∧ c.height = 480 ∧
    ∀ p, SameDirection (Cam.unmap c p) (sensorRay ⟨(320 : Int), (240 : Int)⟩ (-179.5) 0 0.002 (0 : Int) (0 : Int) p) := by
  obtain ⟨c, hc⟩ := exLine
  have ht : exToks "640 480 -179.5 0 0.002 0 0 320 240".toList
      = .int ((640 : Nat) : Int) :: .int ((480 : Nat) : Int) :: [.real (-179.5), .int 0, .real (0.002), .int 0, .int 0, .int 320, .int 240] ++ [] := by
    unfold exToks; rw [if_neg (by decide)]; rfl
  refine ⟨c, hc, C113_omni_partial (by decide) (by decide) (by norm_num) ht ?_ hc⟩
  refine .cons (.real _) (.cons ?_ (.cons (.real _) (.cons (.int 0) (.cons (.int 0) (.cons (.int 320) (.cons (.int 240) .nil))))))
  simpa using Denotes.int 0

/-- The hypotheses of `C113_short_violated` are met by a line that only has the size. -/
example : camOfLine exCamEnv exToks "640 480".toList = .error .ub := by
  refine C113_short_violated (w := 640) (h := 480) (ts := []) (xs := []) (by decide) (by decide) ?_ .nil (by decide)
  unfold exToks; rw [if_pos rfl]; rfl

/-- The hypotheses of `C113_linear_violated` are met: the ray of the corner is wrong for a second coefficient 1. -/
example : ∃ c, camOfLine exCamEnv (fun _ => [.int 2, .int 2, .int (-5), .int 1, .int 0, .int 0, .int 0, .int 1, .int 1]) "2 2 -5".toList = .ok c ∧
    ¬ SameDirection (Cam.unmap c ⟨0, 0⟩) (sensorRay ⟨(1 : Int), (1 : Int)⟩ (-5 : Int) (1 : Int) (0 : Int) (0 : Int) (0 : Int) ⟨0, 0⟩) := by
  have hd : List.Forall₂ Denotes [.int (-5), .int 1, .int 0, .int 0, .int 0, .int 1, .int 1]
      [((-5 : Int) : ℝ), ((1 : Int) : ℝ), ((0 : Int) : ℝ), ((0 : Int) : ℝ), ((0 : Int) : ℝ), ((1 : Int) : ℝ), ((1 : Int) : ℝ)] :=
    .cons (.int _) (.cons (.int _) (.cons (.int _) (.cons (.int _) (.cons (.int _) (.cons (.int _) (.cons (.int _) .nil))))))
  have hc : ∃ c, camOfLine exCamEnv (fun _ => [.int 2, .int 2, .int (-5), .int 1, .int 0, .int 0, .int 0, .int 1, .int 1]) "2 2 -5".toList
      = .ok c := by
    rw [camOfLine_params (w := 2) (h := 2) (rest := []) (by decide) (by decide) rfl hd]
    unfold Cam.ofPoly Cam.setMapPolyCoeffs exCamEnv
    simp [Cam.nonDecreasing]
  obtain ⟨c, hc⟩ := hc
  refine ⟨c, hc, C113_linear_violated (w := 2) (h := 2) (rest := []) (by decide) (by decide) (by norm_num) (by norm_num) rfl hd hc _ ?_⟩
  intro h
  have := congrArg V2.x h
  norm_num at this

/-- The hypotheses of `C113_pinhole_partial` are met. -/
example : ∃ c, camOfLine exCamEnv exToks "K = [500 0 320; 0 500 240; 0 0 1]".toList = .ok c ∧ c.width = 640 := by
  have hc : ∃ c, camOfLine exCamEnv exToks "K = [500 0 320; 0 500 240; 0 0 1]".toList = .ok c := by
    unfold camOfLine
    rw [if_neg (by decide), if_pos (by decide)]
    unfold Cam.ofPinhole Cam.setMapPolyCoeffs exCamEnv
    simp [Cam.nonDecreasing]
  obtain ⟨c, hc⟩ := hc
  exact ⟨c, hc, (C113_pinhole_partial (by decide) hc).1⟩

/-- A reader of pictures of one row and two columns. -/
def exReader : MultiFovReader Unit := ⟨"d".toList, ⟨2, 1, 0, [], ⟨0, 0⟩, 1, 0, 0, 0, 0, []⟩, []⟩

/-- The hypotheses of `C112_depths_partial` and of `C112_short_violated` are met. -/
example : (∃ m, getDepths (N := Unit) (I := Unit) ⟨fun _ => none, fun _ => none, fun _ => some ([some 1, some 2, none], false), fun _ => none⟩ exReader 3
      = .ok m ∧ m.px 0 1 = some 2) ∧
    ∃ m, getDepths (N := Unit) (I := Unit) ⟨fun _ => none, fun _ => none, fun _ => some ([some 1], false), fun _ => none⟩ exReader 3
      = .ok m ∧ m.px 0 1 = none := by
  have hn := (C111_fits_partial (d := exReader.dir) (by decide) 3 (by decide)).2.2.2
  constructor
  · obtain ⟨m, h1, -, -, h2⟩ := C112_depths_partial (N := Unit) (I := Unit)
      (disk := ⟨fun _ => none, fun _ => none, fun _ => some ([some 1, some 2, none], false), fun _ => none⟩)
      (vs := [1, 2]) (rest := [none]) hn rfl rfl
    exact ⟨m, h1, (h2 0 1 (by decide) (by decide)).1⟩
  · exact C112_short_violated (N := Unit) (I := Unit)
      (disk := ⟨fun _ => none, fun _ => none, fun _ => some ([some 1], false), fun _ => none⟩) hn rfl (by decide)

/-- A directory that is too long for `C111_fits_partial`. -/
example : ∃ d : List Char, 237 ≤ d.length ∧ d.getLast? ≠ some '/' := ⟨List.replicate 240 'a', by rw [List.length_replicate]; decide, by rw [List.getLast?_replicate]; decide⟩

end Mdso.Reader
