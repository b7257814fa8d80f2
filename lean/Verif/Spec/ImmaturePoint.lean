import Verif.Model.ImmaturePoint

/-!
# What tracing a point should do

Written without the loops of the model.
-/

set_option autoImplicit false

namespace Mdso.TraceSpec

open Mdso.Geom Mdso.Cam Mdso.Trace

/-- Huber's norm, scaled: the square of small residuals, linear for large ones. -/
noncomputable def huber (th r : ℝ) : ℝ := if r ≤ th then r ^ 2 else th * (2 * r - th)

/-- The energy of comparing a patch with an image: the sum of the norms of the differences. -/
noncomputable def patchEnergy (th : ℝ) (img : V2 → ℝ) (patch : List (ℝ × V2)) : ℝ :=
  (patch.map fun b => huber th |b.1 - img b.2|).sum

/-- Euclidean distance of two positions. -/
noncomputable def distance (p q : V2) : ℝ := Real.sqrt ((p.x - q.x) ^ 2 + (p.y - q.y) ^ 2)

/-- The number at place `i` is the first of the least ones. -/
def IsFirstMin (es : List ℝ) (i : Nat) : Prop :=
  ∃ x : ℝ, es[i]? = some x ∧ ∀ (j : Nat) (y : ℝ), es[j]? = some y → x ≤ y ∧ (j < i → x < y)

/-- Nothing of what the point knows about its depth differs. -/
def SameEstimate (p q : Point) : Prop :=
  q.depth = p.depth ∧ q.minDepth = p.minDepth ∧ q.maxDepth = p.maxDepth ∧ q.stddev = p.stddev ∧
    q.bestQuality = p.bestQuality ∧ q.numTraced = p.numTraced ∧ q.tracedPyrLevel = p.tracedPyrLevel ∧
    q.depthBeforeSubpixel = p.depthBeforeSubpixel

/-- `c` is what the search knows about the candidate number `k` found at position `f.1` in direction `f.2`: its
depth is infinite for the first one if the point has no upper depth bound, and triangulated otherwise; its energy
compares the patch, on one of the pyramid levels, with the projections for that depth. -/
def IsCandidate (e : Env) (p : Point) (k : Nat) (f : V2 × V3) (c : Cand) : Prop :=
  c.point = f.1 ∧ 0 ≤ c.level ∧ c.level < e.s.levelNum ∧
  ((p.maxDepth = ⊤ ∧ k = 0) → c.depth = ⊤) ∧
  (¬ (p.maxDepth = ⊤ ∧ k = 0) → c.depth = ((e.tri f.2.normalized : ℝ) : WithTop ℝ)) ∧
  (∀ d : ℝ, c.depth = (d : WithTop ℝ) → c.energy =
    patchEnergy e.s.outlierDiff (fun x => (e.interp c.level ((1 / (2 : ℝ) ^ c.level) • x)).1)
      (List.zip (e.baseIntencities.map e.light)
        (f.1 :: e.baseDirections.tail.map fun b => e.cam.map (e.baseToRef.act (d • b)))))

/-- A point was traced several times, with these results. -/
inductive Traces : Point → List Status → Point → Prop
  | none (p : Point) : Traces p [] p
  | more {p q r : Point} {sts : List Status} (e : Env) (fuel : Nat) (st : Status) :
      Traces p sts q → traceOn e fuel q = .ok (some (st, r)) → Traces p (sts ++ [st]) r

/-- A direction on the segment between the directions of the least and the largest depth. -/
def Between (dirMax dirMin v : V3) : Prop := ∃ t : ℝ, 0 ≤ t ∧ t ≤ 1 ∧ v = (1 - t) • dirMax + t • dirMin

/-- A life of a point, as far as its depth is concerned: `traced` tells whether some trace of it succeeded, `given`
whether somebody else gave it a depth. Points are created by selection; traced; given a depth or put out of bounds
by the initializer (source/system/DelaunayDsoInitializer.cpp:62-110; `ready`: with standard deviation 1); created
with the depth of an optimized point (source/system/KeyFrame.cpp:79-87); stored and loaded. All traces happen in
situations satisfying `E`. -/
inductive History (E : Env → Prop) : Bool → Bool → Point → Prop
  | create (onImage : Bool) : History E false false (new onImage)
  | traceOk {t g : Bool} {p q : Point} (e : Env) (fuel : Nat) : E e →
      History E t g p → traceOn e fuel p = .ok (some (.ok, q)) → History E true g q
  | traceFailed {t g : Bool} {p q : Point} (e : Env) (fuel : Nat) (st : Status) : E e →
      History E t g p → traceOn e fuel p = .ok (some (st, q)) → st ≠ .ok → History E t g q
  | initialise {t g : Bool} {p : Point} (ready : Bool) (depth : ℝ) :
      History E t g p → History E t true
        { p with state := .active, depth := some depth, stddev := if ready then ((1 : ℝ) : WithTop ℝ) else p.stddev }
  | putOut {t g : Bool} {p : Point} (ready : Bool) :
      History E t g p → History E t g
        { p with state := .oob, stddev := if ready then ((1 : ℝ) : WithTop ℝ) else p.stddev }
  | deactivate (onImage : Bool) (depth : ℝ) : History E false true { new onImage with depth := some depth }
  | reload {t g : Bool} {p : Point} : History E t g p → History E t g (restore p)

end Mdso.TraceSpec
