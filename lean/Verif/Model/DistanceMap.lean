import Verif.Model.DepthColour
import Mathlib.Data.Nat.Bitwise

/-!
# Model of `DistanceMap`

Models `source/util/DistanceMap.cpp`. Coordinates of points are reals (no NaN) within
the range of `int` (converting others to `int` is undefined). `nth_element` is a
parameter, see `IsNthElement`. The breadth-first loop runs on fuel; the theorems show that some amount of fuel
always suffices. The map is a function from cells to distances together with its size; every access outside
the map is undefined behaviour (Eigen asserts in debug builds, is undefined in release builds).
-/

set_option autoImplicit false

namespace Mdso.DistMap

open Mdso.Util (truncInt)

/-- Largest `int`. -/
def intMax : Nat := 2147483647

/-- A cell `(x, y)`, `Vec2i`. -/
abbrev Cell := Int × Int

/-- One smearing step `x |= (x >> s)` (source/util/DistanceMap.cpp:12-16). -/
def smear (x s : Nat) : Nat := x ||| (x >>> s)

/-- `clp2` (source/util/DistanceMap.cpp:10-18) on 32 bit unsigned numbers; subtraction and addition wrap
around. -/
def clp2 (x : Nat) : Nat :=
  let x := (x + 4294967295) % 4294967296
  let x := smear x 1
  let x := smear x 2
  let x := smear x 4
  let x := smear x 8
  let x := smear x 16
  (x + 1) % 4294967296

/-- `Settings::DistanceMap` (include/util/settings.h:45-51). -/
structure Settings where
  maxWidth : ℝ
  maxHeight : ℝ

/-- `wdiv` or `hdiv` (source/util/DistanceMap.cpp:23-24): the `double` is truncated to `int`. -/
noncomputable def divisor (given : Nat) (limit : ℝ) : Nat :=
  (truncInt (1 + ((given : ℝ) - 1) / limit)).toNat

/-- `pyrDown` (source/util/DistanceMap.cpp:25). -/
noncomputable def pyrDown (givenW givenH : Nat) (s : Settings) : Nat :=
  min (clp2 (divisor givenW s.maxWidth)) (clp2 (divisor givenH s.maxHeight))

/-- `dist` and the queue of the constructor (source/util/DistanceMap.cpp:31, 33). -/
structure State where
  dist : Cell → Nat
  q : List Cell

/-- Assignment to one cell. -/
def set (d : Cell → Nat) (c : Cell) (v : Nat) : Cell → Nat := fun c' => if c' = c then v else d c'

/-- The cell lies on the map of size `w`×`h`. -/
def OnMap (w h : Nat) (c : Cell) : Prop := 0 ≤ c.1 ∧ c.1 < w ∧ 0 ≤ c.2 ∧ c.2 < h

instance (w h : Nat) (c : Cell) : Decidable (OnMap w h c) := by unfold OnMap; infer_instance

/-- Does the constructor use the point (source/util/DistanceMap.cpp:36)? -/
def Used (givenW givenH : Nat) (p : ℝ × ℝ) : Prop := 0 ≤ p.1 ∧ p.1 < givenW ∧ 0 ≤ p.2 ∧ p.2 < givenH

/-- `p.cast<int>() / pyrDown` (source/util/DistanceMap.cpp:39, 72): truncation, then `int` division. -/
noncomputable def cellOf (pyrDown : Nat) (p : ℝ × ℝ) : Cell :=
  (Int.tdiv (truncInt p.1) pyrDown, Int.tdiv (truncInt p.2) pyrDown)

open Classical in
/-- The loop over the points (source/util/DistanceMap.cpp:35-42). -/
noncomputable def seed (givenW givenH pyr w h : Nat) : List (ℝ × ℝ) → State → Except Fault State
  | [], s => .ok s
  | p :: ps, s =>
    if Used givenW givenH p then
      let pi := cellOf pyr p
      if OnMap w h pi then seed givenW givenH pyr w h ps ⟨set s.dist pi 0, s.q ++ [pi]⟩
      else .error .ub
    else seed givenW givenH pyr w h ps s

/-- One neighbour (source/util/DistanceMap.cpp:50-54 and 57-61): `inside` is the range test of the
coordinate that changed. -/
def relax (curd : Nat) (s : State) (inside : Bool) (n : Cell) : State :=
  if inside ∧ s.dist n > curd + 1 then ⟨set s.dist n (curd + 1), s.q ++ [n]⟩ else s

/-- One round of the loop (source/util/DistanceMap.cpp:45-62) for the front cell `cur` of the queue. A front
cell outside the map, or a distance whose successor overflows, would be undefined behaviour. -/
def round (w h : Nat) (cur : Cell) (s : State) : Except Fault State :=
  if ¬ OnMap w h cur ∨ s.dist cur ≥ intMax then .error .ub
  else
    let curd := s.dist cur
    let inX := fun x : Int => decide (0 ≤ x ∧ x < w)
    let inY := fun y : Int => decide (0 ≤ y ∧ y < h)
    let s := relax curd s (inX (cur.1 - 1)) (cur.1 - 1, cur.2)
    let s := relax curd s (inX (cur.1 + 1)) (cur.1 + 1, cur.2)
    let s := relax curd s (inY (cur.2 - 1)) (cur.1, cur.2 - 1)
    .ok (relax curd s (inY (cur.2 + 1)) (cur.1, cur.2 + 1))

/-- The loop `while (!q.empty())` (source/util/DistanceMap.cpp:44-63); `none` when the fuel is used up. -/
def bfs (w h : Nat) : Nat → State → Except Fault (Option State)
  | _, ⟨d, []⟩ => .ok (some ⟨d, []⟩)
  | 0, ⟨_, _ :: _⟩ => .ok none
  | fuel + 1, ⟨d, cur :: q⟩ =>
    match round w h cur ⟨d, q⟩ with
    | .error e => .error e
    | .ok s => bfs w h fuel s

/-- A `DistanceMap` (include/util/DistanceMap.h:19-20): the factor, the size of `dist` and its values. -/
structure Map where
  pyr : Nat
  w : Nat
  h : Nat
  dist : Cell → Nat

/-- The constructor (source/util/DistanceMap.cpp:20-64) after `pyrDown` is known. A factor of zero (picture
without pixels) is a division by zero. -/
noncomputable def buildWith (pyr givenW givenH : Nat) (points : List (ℝ × ℝ)) (fuel : Nat) :
    Except Fault (Option Map) :=
  if pyr = 0 then .error .ub
  else
    let w := givenW / pyr
    let h := givenH / pyr
    match seed givenW givenH pyr w h points ⟨fun _ => intMax, []⟩ with
    | .error e => .error e
    | .ok s =>
      match bfs w h fuel s with
      | .error e => .error e
      | .ok none => .ok none
      | .ok (some s) => .ok (some ⟨pyr, w, h, s.dist⟩)

/-- The constructor (source/util/DistanceMap.cpp:20-64). -/
noncomputable def build (givenW givenH : Nat) (s : Settings) (points : List (ℝ × ℝ)) (fuel : Nat) :
    Except Fault (Option Map) :=
  buildWith (pyrDown givenW givenH s) givenW givenH points fuel

/-! ## `choose` -/

/-- What the standard promises for `std::nth_element(begin, begin + n, end, comp)` with the comparison of
source/util/DistanceMap.cpp:83-84: a rearrangement, and nothing behind position `n` precedes anything before
it. -/
def IsNthElement (nth : List (Nat × Int) → Nat → List (Nat × Int)) : Prop :=
  ∀ l n, n ≤ l.length → (nth l n).Perm l ∧
    ∀ (i j : Nat) (a b : Nat × Int), (nth l n)[i]? = some a → (nth l n)[j]? = some b → i < n → n ≤ j →
      b.2 ≤ a.2

/-- The box test of source/util/DistanceMap.cpp:75-76; `AlignedBox::contains` includes the upper corner. -/
def inBox (m : Map) (c : Cell) : Prop := 0 ≤ c.1 ∧ c.1 ≤ m.w ∧ 0 ≤ c.2 ∧ c.2 ≤ m.h

instance (m : Map) (c : Cell) : Decidable (inBox m c) := by unfold inBox; infer_instance

/-- One entry of `otherDist` (source/util/DistanceMap.cpp:71-78): the second component. -/
noncomputable def distOf (m : Map) (p : ℝ × ℝ) : Except Fault Int :=
  let pi := cellOf m.pyr p
  if inBox m pi then
    if OnMap m.w m.h pi then .ok (m.dist pi) else .error .ub
  else .ok (-1)

/-- The loop filling `otherDist` (source/util/DistanceMap.cpp:70-79), from index `i` on. -/
noncomputable def otherDist (m : Map) : List (ℝ × ℝ) → Nat → Except Fault (List (Nat × Int))
  | [], _ => .ok []
  | p :: ps, i =>
    match distOf m p with
    | .error e => .error e
    | .ok d =>
      match otherDist m ps (i + 1) with
      | .error e => .error e
      | .ok rest => .ok ((i, d) :: rest)

/-- `choose` (source/util/DistanceMap.cpp:66-91). A negative count makes the iterator `begin() + total` point
before the vector. -/
noncomputable def choose (nth : List (Nat × Int) → Nat → List (Nat × Int)) (m : Map)
    (otherPoints : List (ℝ × ℝ)) (pointsNeeded : Int) : Except Fault (List Nat) :=
  match otherDist m otherPoints 0 with
  | .error e => .error e
  | .ok od =>
    if pointsNeeded < 0 then .error .ub
    else
      let total := min pointsNeeded.toNat otherPoints.length
      .ok (((nth od total).take total).filter (fun a => a.2 ≠ -1) |>.map Prod.fst)

end Mdso.DistMap
