import Verif.Spec.StereoGeometry
import Verif.Spec.TriChance

/-!
# How likely random samples find the motion

A drawing of `maxRansacIter` samples is a function from the rounds to five indices each; all functions are equally likely.
-/

set_option autoImplicit false

namespace Mdso.StereoSpec

open Mdso.Geom Mdso.Cam Mdso.Stereo

/-- The five indices of a sample, in the order drawn. -/
def sampleOf {n : Nat} (s : Fin 5 → Fin n) : List Nat := List.ofFn fun i => (s i).val

/-- The samples of all rounds; later rounds do not exist. -/
def drawsOf {M n : Nat} (d : Fin M → Fin 5 → Fin n) : Nat → List Nat :=
  fun it => if h : it < M then sampleOf (d ⟨it, h⟩) else List.replicate 5 0

/-- The hypothesis considered for the sample has a motion with at least `K` inliers. -/
def Good (e : Env) (corr : List (V2 × V2)) (K : Nat) (sample : List Nat) : Prop :=
  ∃ E m, IsHypothesis e corr sample E ∧ IsUnitMotion m ∧ HasEssential m E ∧ K ≤ (inliers e corr E m).length

/-- Any five different correspondences of the set give a motion with as many inliers as the set has elements. -/
def Consensus (e : Env) (corr : List (V2 × V2)) (G : Finset Nat) : Prop :=
  (∀ i ∈ G, i < corr.length) ∧
    ∀ sample : List Nat, sample.length = 5 → sample.Nodup → (∀ i ∈ sample, i ∈ G) → Good e corr G.card sample

/-- The call returns a motion with at least `K` inliers. -/
def Finds (e : Env) (corr : List (V2 × V2)) (K : Nat) (samples : Nat → List Nat) : Prop :=
  ∃ r, findCoarseMotion e samples e.s.maxRansacIter.toNat (create e corr) = .ok (some r) ∧ K ≤ r.2.inliersInds.length

/-- The promise of the settings: if some set of correspondences agrees on a motion, and `maxRansacIter` samples would do if each consisted of members of the
set with the fifth power of its share as probability, then a motion with as many inliers is found with probability at least `successProb`. -/
def KeepsPromise (e : Env) (corr : List (V2 × V2)) : Prop :=
  ∀ G, Consensus e corr G →
    (1 - ((G.card : ℝ) / corr.length) ^ 5) ^ e.s.maxRansacIter.toNat ≤ 1 - e.s.successProb →
    e.s.successProb ≤ Tri.Spec.share fun d : Fin e.s.maxRansacIter.toNat → Fin 5 → Fin corr.length => Finds e corr G.card (drawsOf d)

end Mdso.StereoSpec
