import Verif.Spec.Triangulation
import Mathlib.Data.Rat.Cast.Order
import Mathlib.Data.Rat.Cast.CharZero
import Mathlib.Tactic.NormNum
import Mathlib.Tactic.LinearCombination
import Mathlib.Tactic.Linarith
import Mathlib.Tactic.FieldSimp
import Mathlib.Algebra.Order.Ring.Rat
import Mathlib.Algebra.Order.Field.Rat

/-!
# The triangulation of rational points

Predicates that the kernel can evaluate, equal to those over the reals.
-/

set_option autoImplicit false

namespace Mdso.Tri

open Mdso.Geom Mdso.Tri.Spec

/-- A point with rational coordinates. -/
structure Q2 where
  x : ℚ
  y : ℚ

/-- The same point over the reals. -/
noncomputable def Q2.real (p : Q2) : V2 := ⟨p.x, p.y⟩

namespace Q2

def cr (a b p : Q2) : ℚ := (b.x - a.x) * (p.y - a.y) - (b.y - a.y) * (p.x - a.x)

def ss (a b p q : Q2) : Bool := decide (0 ≤ cr a b p * cr a b q)

def sq (a b : Q2) : ℚ := (a.x - b.x) * (a.x - b.x) + (a.y - b.y) * (a.y - b.y)

def dt (a b p : Q2) : ℚ := (b.x - a.x) * (p.x - a.x) + (b.y - a.y) * (p.y - a.y)

def seg (a b p : Q2) (e : ℚ) : Bool :=
  decide (sq b a ≠ 0) && (decide (cr a b p * cr a b p < e * e * sq b a) &&
    ((decide (0 ≤ dt a b p) || decide (dt a b p * dt a b p ≤ e * e * sq b a)) &&
      (decide (dt a b p ≤ sq b a) || decide ((dt a b p - sq b a) * (dt a b p - sq b a) ≤ e * e * sq b a))))

def det (a b c d : Q2) : ℚ :=
  (a.x - d.x) * ((b.y - d.y) * sq c d - sq b d * (c.y - d.y)) -
    (a.y - d.y) * ((b.x - d.x) * sq c d - sq b d * (c.x - d.x)) +
    sq a d * ((b.x - d.x) * (c.y - d.y) - (b.y - d.y) * (c.x - d.x))

def inTri (a b c p : Q2) : Bool := ss a b p c && (ss a c p b && ss b c p a)

theorem cr_real (a b p : Q2) : cross2 (b.real - a.real) (p.real - a.real) = (cr a b p : ℝ) := by
  unfold cross2 cr real
  simp only [sub_x, sub_y]
  push_cast
  ring

theorem ss_real (a b p q : Q2) : isSameSide a.real b.real p.real q.real ↔ ss a b p q = true := by
  unfold isSameSide ss
  rw [cr_real, cr_real, decide_eq_true_eq, ge_iff_le, ← Rat.cast_mul, Rat.cast_nonneg]

theorem inTri_real (a b c p : Q2) : isInsideTriangle a.real b.real c.real p.real ↔ inTri a b c p = true := by
  unfold isInsideTriangle inTri
  rw [Bool.and_eq_true, Bool.and_eq_true, ss_real, ss_real, ss_real]

theorem sq_real (a b : Q2) : sqNorm (a.real - b.real) = (sq a b : ℝ) := by
  unfold sqNorm sq real
  simp only [sub_x, sub_y]
  push_cast
  ring

theorem sq_nonneg (a b : Q2) : 0 ≤ sq a b := add_nonneg (mul_self_nonneg _) (mul_self_nonneg _)

theorem le_sqrt_iff {c e n N : ℝ} (he : 0 ≤ e) (hn : 0 < n) (hN : n * n = N) : c ≤ e * n ↔ c ≤ 0 ∨ c * c ≤ e * e * N := by
  have hen : 0 ≤ e * n := by positivity
  constructor
  · intro h
    by_cases hc : c ≤ 0
    · exact .inl hc
    · right
      have := mul_self_le_mul_self (not_le.1 hc).le h
      linear_combination this + e * e * hN
  · rintro (h | h)
    · exact h.trans hen
    · refine abs_le_of_sq_le_sq' (a := c) ?_ hen |>.2
      have h1 : (e * n) ^ 2 = e * e * N := by rw [← hN]; ring
      rw [h1, sq_eq]
      exact h
where
  sq_eq {c : ℝ} : c ^ 2 = c * c := by ring

theorem seg_real (a b p : Q2) (e : ℚ) (he : 0 ≤ e) : doesABcontain a.real b.real p.real e ↔ seg a b p e = true := by
  have he' : (0 : ℝ) ≤ e := by exact_mod_cast he
  obtain ⟨N, hN⟩ : ∃ N : ℝ, N = (sq b a : ℝ) := ⟨_, rfl⟩
  obtain ⟨n, hn⟩ : ∃ n, n = Real.sqrt (sqNorm (b.real - a.real)) := ⟨_, rfl⟩
  have hN0 : 0 ≤ N := by rw [hN]; exact_mod_cast sq_nonneg b a
  have hnn : n * n = N := by rw [hn, sq_real, hN]; exact Real.mul_self_sqrt (hN ▸ hN0)
  have hn0 : 0 ≤ n := hn ▸ Real.sqrt_nonneg _
  unfold doesABcontain seg
  rw [← hn]
  simp only [Bool.and_eq_true, Bool.or_eq_true, decide_eq_true_eq]
  have c1 : n ≠ 0 ↔ sq b a ≠ 0 := by
    have : n = 0 ↔ N = 0 := by
      rw [← hnn]
      simp
    rw [not_iff_not, this, hN, Rat.cast_eq_zero]
  by_cases hz : n = 0
  · have h1 : ¬ sq b a ≠ 0 := fun h => (c1.2 h) hz
    simp only [hz, ne_eq, not_true_eq_false, false_and, false_iff]
    exact fun h => h1 h.1
  · have hpos : 0 < n := lt_of_le_of_ne hn0 (Ne.symm hz)
    have hsq : sq b a ≠ 0 := c1.1 hz
    obtain ⟨c, hc⟩ : ∃ c : ℝ, c = (cr a b p : ℝ) := ⟨_, rfl⟩
    obtain ⟨d, hd⟩ : ∃ d : ℝ, d = (dt a b p : ℝ) := ⟨_, rfl⟩
    have k1 : dot (p.real - a.real) ⟨(b.real - a.real).y / n, -((b.real - a.real).x / n)⟩ = -c / n := by
      rw [hc]
      unfold dot cr real
      simp only [sub_x, sub_y]
      push_cast
      field_simp
      ring
    have k2 : dot ⟨(b.real - a.real).x / n, (b.real - a.real).y / n⟩ (p.real - a.real) = d / n := by
      rw [hd]
      unfold dot dt real
      simp only [sub_x, sub_y]
      push_cast
      field_simp
    rw [k1, k2]
    have t1 : |(-c) / n| < e ↔ cr a b p * cr a b p < e * e * sq b a := by
      rw [abs_div, abs_neg, abs_of_pos hpos, div_lt_iff₀ hpos, ← Rat.cast_lt (K := ℝ)]
      push_cast
      rw [← hc, ← hN, ← hnn]
      have : (e : ℝ) * e * (n * n) = (e * n) * (e * n) := by ring
      rw [this, ← abs_mul_abs_self c]
      constructor
      · intro h; exact mul_self_lt_mul_self (abs_nonneg _) h
      · intro h
        exact lt_of_mul_self_lt_mul_self₀ (by positivity) h
    have t2 : d / n ≥ -e ↔ 0 ≤ dt a b p ∨ dt a b p * dt a b p ≤ e * e * sq b a := by
      rw [ge_iff_le, le_div_iff₀ hpos]
      have h1 : -(e : ℝ) * n ≤ d ↔ -d ≤ e * n := by constructor <;> intro h <;> linarith
      rw [h1, le_sqrt_iff he' hpos hnn, hd, hN]
      refine or_congr ?_ ?_
      · rw [neg_nonpos, Rat.cast_nonneg]
      · rw [neg_mul_neg]
        exact_mod_cast Iff.rfl
    have t3 : d / n ≤ n + e ↔ dt a b p ≤ sq b a ∨
        (dt a b p - sq b a) * (dt a b p - sq b a) ≤ e * e * sq b a := by
      rw [div_le_iff₀ hpos]
      have h1 : d ≤ (n + e) * n ↔ d - N ≤ e * n := by
        rw [← hnn]
        constructor <;> intro h <;> linarith
      rw [h1, le_sqrt_iff he' hpos hnn, hd, hN]
      refine or_congr ?_ ?_
      · rw [sub_nonpos, Rat.cast_le]
      · exact_mod_cast Iff.rfl
    rw [t1, t2, t3]
    exact ⟨fun h => ⟨hsq, h.2⟩, fun h => ⟨hz, h.2⟩⟩

theorem det_real (a b c d : Q2) :
    isABDelaunay a.real b.real c.real d.real ↔ det a b c d * cr a b c ≤ 0 := by
  rw [← Rat.cast_le (K := ℝ)]
  have : ((det a b c d * cr a b c : ℚ) : ℝ) =
      ((a.x - d.x) * ((b.y - d.y) * (sq c d : ℝ) - (sq b d : ℝ) * (c.y - d.y)) -
        (a.y - d.y) * ((b.x - d.x) * (sq c d : ℝ) - (sq b d : ℝ) * (c.x - d.x)) +
        (sq a d : ℝ) * ((b.x - d.x) * (c.y - d.y) - (b.y - d.y) * (c.x - d.x))) * (cr a b c : ℝ) := by
    unfold det
    push_cast
    ring
  rw [this, Rat.cast_zero]
  unfold isABDelaunay
  simp only [sq_real]
  have h2 : cross2 (b.real - a.real) (c.real - b.real) = (cr a b c : ℝ) := by
    unfold cross2 cr real
    simp only [sub_x, sub_y]
    push_cast
    ring
  rw [h2]
  rfl

end Q2

/-- `predsAt` for rational points. -/
def predsQ (pos : Nat → Q2) (e1 e2 : ℚ) : Preds where
  convex a b c d := Q2.ss (pos a) (pos b) (pos c) (pos d) && (Q2.ss (pos b) (pos c) (pos a) (pos d) &&
    (Q2.ss (pos c) (pos d) (pos a) (pos b) && Q2.ss (pos d) (pos a) (pos b) (pos c)))
  delaunay a b c d := decide (Q2.det (pos a) (pos b) (pos c) (pos d) * Q2.cr (pos a) (pos b) (pos c) ≤ 0)
  equal a b := decide (Q2.sq (pos a) (pos b) < e2 * e2)
  query v :=
    { inBound := Q2.inTri (pos 0) (pos 1) (pos 2) (pos v)
      onEdge := fun a b => Q2.seg (pos a) (pos b) (pos v) e1
      inTri := fun a b c => Q2.inTri (pos a) (pos b) (pos c) (pos v)
      sameSide := fun a b c => Q2.ss (pos a) (pos b) (pos c) (pos v) }

theorem predsAt_real (pos : Nat → Q2) (e1 e2 : ℚ) (h1 : 0 ≤ e1) :
    predsAt (fun v => (pos v).real) e1 e2 = predsQ pos e1 e2 := by
  have key : ∀ {P : Prop} {i : Decidable P} {b : Bool}, (P ↔ b = true) → @decide P i = b := by
    intro P _ b h
    rw [Bool.eq_iff_iff, decide_eq_true_eq]
    exact h
  unfold predsAt predsQ queryAt
  congr 1
  · funext a b c d
    refine key ?_
    unfold isABCDConvex
    simp only [Q2.ss_real, Bool.and_eq_true]
  · funext a b c d
    refine key ?_
    rw [Q2.det_real, decide_eq_true_eq]
  · funext a b
    refine key ?_
    unfold areEqual
    rw [Q2.sq_real, decide_eq_true_eq, ← Rat.cast_mul, Rat.cast_lt]
  · funext v
    congr 1
    · exact key (Q2.inTri_real _ _ _ _)
    · funext a b
      exact key (Q2.seg_real _ _ _ _ h1)
    · funext a b c
      exact key (Q2.inTri_real _ _ _ _)
    · funext a b c
      exact key (Q2.ss_real _ _ _ _)

def lowestQ (f : Q2 → ℚ) : List Q2 → ℚ
  | [] => 0
  | p :: ps => ps.foldl (fun lo q => if f q < lo then f q else lo) (f p)

def highestQ (f : Q2 → ℚ) : List Q2 → ℚ
  | [] => 0
  | p :: ps => ps.foldl (fun hi q => if f q > hi then f q else hi) (f p)

theorem lowest_real (f : V2 → ℝ) (g : Q2 → ℚ) (h : ∀ p, f (Q2.real p) = g p) (points : List Q2) :
    lowest f (points.map Q2.real) = lowestQ g points := by
  classical
  have key : ∀ (ps : List Q2) (lo : ℚ),
      (ps.map Q2.real).foldl (fun lo q => if f q < lo then f q else lo) (lo : ℝ) =
        ((ps.foldl (fun lo q => if g q < lo then g q else lo) lo : ℚ) : ℝ) := by
    intro ps
    induction ps with
    | nil => intro lo; rfl
    | cons p ps ih =>
      intro lo
      rw [List.map_cons, List.foldl_cons, List.foldl_cons, ← ih, h]
      congr 1
      by_cases hc : g p < lo
      · rw [if_pos hc, if_pos (by exact_mod_cast hc)]
      · rw [if_neg hc, if_neg (by exact_mod_cast hc)]
  cases points with
  | nil => simp [lowest, lowestQ]
  | cons p ps =>
    unfold lowest lowestQ
    rw [List.map_cons]
    simp only [h]
    convert key ps (g p) using 2

theorem highest_real (f : V2 → ℝ) (g : Q2 → ℚ) (h : ∀ p, f (Q2.real p) = g p) (points : List Q2) :
    highest f (points.map Q2.real) = highestQ g points := by
  classical
  have key : ∀ (ps : List Q2) (hi : ℚ),
      (ps.map Q2.real).foldl (fun hi q => if f q > hi then f q else hi) (hi : ℝ) =
        ((ps.foldl (fun hi q => if g q > hi then g q else hi) hi : ℚ) : ℝ) := by
    intro ps
    induction ps with
    | nil => intro lo; rfl
    | cons p ps ih =>
      intro hi
      rw [List.map_cons, List.foldl_cons, List.foldl_cons, ← ih, h]
      congr 1
      by_cases hc : g p > hi
      · rw [if_pos hc, if_pos (by exact_mod_cast hc)]
      · rw [if_neg hc, if_neg (by exact_mod_cast hc)]
  cases points with
  | nil => simp [highest, highestQ]
  | cons p ps =>
    unfold highest highestQ
    rw [List.map_cons]
    simp only [h]
    convert key ps (g p) using 2

def maxDimQ (points : List Q2) : ℚ :=
  max (highestQ Q2.x points - lowestQ Q2.x points) (highestQ Q2.y points - lowestQ Q2.y points)

theorem maxDim_real (points : List Q2) : maxDim (points.map Q2.real) = maxDimQ points := by
  unfold maxDim maxDimQ
  rw [lowest_real V2.x Q2.x (fun _ => rfl), lowest_real V2.y Q2.y (fun _ => rfl),
    highest_real V2.x Q2.x (fun _ => rfl), highest_real V2.y Q2.y (fun _ => rfl)]
  push_cast
  rfl

def positionQ (points : List Q2) (order : List Nat) (v : Nat) : Q2 :=
  if v < 3 then
    if v = 0 then ⟨lowestQ Q2.x points - maxDimQ points, lowestQ Q2.y points - maxDimQ points⟩
    else if v = 1 then ⟨lowestQ Q2.x points + 4 * maxDimQ points, lowestQ Q2.y points - maxDimQ points⟩
    else ⟨lowestQ Q2.x points - maxDimQ points, lowestQ Q2.y points + 4 * maxDimQ points⟩
  else match order[v - 3]? with
    | some k => points.getD k ⟨lowestQ Q2.x points - maxDimQ points, lowestQ Q2.y points - maxDimQ points⟩
    | none => ⟨lowestQ Q2.x points - maxDimQ points, lowestQ Q2.y points - maxDimQ points⟩

theorem position_real (points : List Q2) (order : List Nat) :
    position (points.map Q2.real) order = fun v => (positionQ points order v).real := by
  funext v
  have hb : boundingPos (points.map Q2.real) 0 = Q2.real ⟨lowestQ Q2.x points - maxDimQ points, lowestQ Q2.y points - maxDimQ points⟩ := by
    unfold boundingPos
    simp only [maxDim_real, lowest_real V2.x Q2.x (fun _ => rfl), lowest_real V2.y Q2.y (fun _ => rfl), if_true]
    unfold Q2.real
    push_cast
    rfl
  unfold position positionQ
  by_cases h3 : v < 3
  · rw [if_pos h3, if_pos h3]
    unfold boundingPos
    simp only [maxDim_real, lowest_real V2.x Q2.x (fun _ => rfl), lowest_real V2.y Q2.y (fun _ => rfl)]
    split
    · unfold Q2.real; push_cast; rfl
    · split
      · unfold Q2.real; push_cast; rfl
      · unfold Q2.real; push_cast; rfl
  · rw [if_neg h3, if_neg h3]
    cases order[v - 3]? with
    | none => exact hb
    | some k =>
      simp only [List.getD, List.getElem?_map]
      cases points[k]? with
      | none => exact hb
      | some p => simp

/-- The triangulation of rational points. -/
theorem triangulate_real (env : Env) (e1 e2 : ℚ) (points : List Q2) (h1 : 0 ≤ e1 * maxDimQ points) (order : List Nat)
    (fuel : Nat) : triangulate env ⟨e1, e2⟩ (points.map Q2.real) order fuel =
      construct env (predsQ (positionQ points order) (e1 * maxDimQ points) (e2 * maxDimQ points)) order fuel := by
  unfold triangulate
  simp only [position_real, maxDim_real]
  rw [← predsAt_real _ _ _ h1]
  push_cast
  rfl

/-! ### General position -/

def sitesQ (points : List Q2) : List Q2 :=
  [positionQ points [] 0, positionQ points [] 1, positionQ points [] 2] ++ points

theorem sites_real (points : List Q2) : sites (points.map Q2.real) = (sitesQ points).map Q2.real := by
  have h : ∀ i, i < 3 → boundingPos (points.map Q2.real) i = (positionQ points [] i).real := by
    intro i hi
    have := congrFun (position_real points []) i
    unfold position at this
    rw [if_pos hi] at this
    exact this
  unfold sites sitesQ
  rw [h 0 (by omega), h 1 (by omega), h 2 (by omega)]
  rfl

/-- A check that implies general position. -/
def generalQ (e1 e2 : ℚ) (points : List Q2) : Bool :=
  decide (0 < e1) && (decide (0 < maxDimQ points) &&
    (let l := sitesQ points
     let n := l.length
     let at0 := fun i => l.getD i ⟨0, 0⟩
     (List.range n).all fun i => (List.range n).all fun j => decide (i = j) ||
      (decide ((e2 * maxDimQ points) ^ 2 ≤ Q2.sq (at0 i) (at0 j)) && decide (0 < Q2.sq (at0 j) (at0 i)) &&
        (List.range n).all fun k => decide (i = k) || decide (j = k) ||
          decide (2 * (e1 * maxDimQ points) ^ 2 * Q2.sq (at0 j) (at0 i) ≤ Q2.cr (at0 i) (at0 j) (at0 k) ^ 2))))

theorem general_of_check {e1 e2 : ℚ} {points : List Q2} (h : generalQ e1 e2 points = true) :
    GeneralPosition ⟨e1, e2⟩ (points.map Q2.real) := by
  unfold generalQ at h
  simp only [Bool.and_eq_true, Bool.or_eq_true, decide_eq_true_eq, List.all_eq_true, List.mem_range] at h
  obtain ⟨h1, h2, h3⟩ := h
  have hget : ∀ (i : Nat) (p : V2), (sites (points.map Q2.real))[i]? = some p →
      i < (sitesQ points).length ∧ p = ((sitesQ points).getD i ⟨0, 0⟩).real := by
    intro i p hp
    rw [sites_real, List.getElem?_map] at hp
    cases hq : (sitesQ points)[i]? with
    | none => rw [hq] at hp; cases hp
    | some q =>
      rw [hq] at hp
      refine ⟨(List.getElem?_eq_some_iff.1 hq).1, ?_⟩
      rw [List.getD, hq]
      exact (Option.some.inj hp).symm
  constructor
  · show (0 : ℝ) < e1
    exact_mod_cast h1
  · rw [maxDim_real]
    exact_mod_cast h2
  · intro i j p q hij hp hq
    obtain ⟨ip, rfl⟩ := hget i p hp
    obtain ⟨jq, rfl⟩ := hget j q hq
    rw [Q2.sq_real, maxDim_real]
    rcases h3 i ip j jq with h | ⟨⟨h, -⟩, -⟩
    · exact absurd h hij
    · show ((e2 : ℝ) * maxDimQ points) ^ 2 ≤ _
      exact_mod_cast h
  · intro i j k p q r hij hik hjk hp hq hr l hl0 hl1
    obtain ⟨ip, rfl⟩ := hget i p hp
    obtain ⟨jq, rfl⟩ := hget j q hq
    obtain ⟨kr, rfl⟩ := hget k r hr
    rcases h3 i ip j jq with h | ⟨⟨-, hpos⟩, h⟩
    · exact absurd h hij
    · rcases h k kr with (h | h) | h
      · exact absurd h hik
      · exact absurd h hjk
      · rw [maxDim_real]
        generalize (sitesQ points).getD i ⟨0, 0⟩ = a at *
        generalize (sitesQ points).getD j ⟨0, 0⟩ = b at *
        generalize (sitesQ points).getD k ⟨0, 0⟩ = c at *
        have hN : (0 : ℝ) < Q2.sq b a := by exact_mod_cast hpos
        have hh : 2 * ((e1 : ℝ) * maxDimQ points) ^ 2 * (Q2.sq b a : ℝ) ≤ (Q2.cr a b c : ℝ) ^ 2 := by exact_mod_cast h
        show 2 * ((e1 : ℝ) * maxDimQ points) ^ 2 ≤ _
        refine le_of_mul_le_mul_right (hh.trans ?_) hN
        unfold Q2.cr Q2.sq Q2.real sqNorm
        simp only [sub_x, sub_y, add_x, add_y, smul_x, smul_y]
        push_cast
        have key : ∀ u v w z : ℝ, (u * z - v * w) ^ 2 ≤
            ((w - l * u) * (w - l * u) + (z - l * v) * (z - l * v)) * (u * u + v * v) := by
          intro u v w z
          have : ((w - l * u) * (w - l * u) + (z - l * v) * (z - l * v)) * (u * u + v * v) - (u * z - v * w) ^ 2 =
            ((w - l * u) * u + (z - l * v) * v) ^ 2 := by ring
          have h2 := sq_nonneg ((w - l * u) * u + (z - l * v) * v)
          linarith
        have := key (b.x - a.x) (b.y - a.y) (c.x - a.x) (c.y - a.y)
        refine this.trans (le_of_eq ?_)
        ring

end Mdso.Tri
