import Verif.Props.Triangulation
import Verif.Lemmas.TriChance
import Mathlib.Analysis.SpecificLimits.Basic

/-!
# C160: with fair coins the random walks of a triangulation end with probability one
-/

set_option autoImplicit false

namespace Mdso.Tri

open Mdso.Geom Mdso.Tri.Spec

/-- C160: if all sequences of coins are equally likely, a lookup in a triangulation with `E` edges ends within `fuel`
rounds, with a triangle, with probability at least `1 - (1 - 2^-E)^⌊fuel / E⌋`. -/
theorem C160_lookup {env env' : Env} (henv : Lawful env) (henv' : Lawful env') {s : Settings} {points : List V2}
    {order : List Nat} {fuel : Nat} (ho : Shuffle points.length order) (hG : GeneralPosition s points)
    {t : Triangulation} {l : List Nat} (h : triangulate env s points order fuel = .ok (some (t, l))) (q : V2) (eps : ℝ)
    (hq : Inside (position points order 0) (position points order 1) (position points order 2) q)
    (hgen : ∀ a ∈ vertices t, ∀ b ∈ vertices t, a ≠ b →
      area (position points order a) (position points order b) q ≠ 0) (rounds : Nat) :
    1 - (1 - 1 / 2 ^ t.allEdges.length) ^ (rounds / t.allEdges.length) ≤ share fun c : Fin rounds → Bool =>
      ∃ k ∈ t.allTriangles, enclosingTriangle env' t.mesh (queryAt (position points order) eps q) (coinsOf c) rounds =
        .ok (some (some k)) := by
  have hlook := C88_lookup henv henv' ho hG h q eps
  obtain ⟨r, hr, -, g⟩ := triangulate_general henv ho hG fuel
  rw [hr] at h
  obtain ⟨-, -, -, -, -, AE, AT, k1, k2, k3, k4, k5, k6⟩ := g t l (Except.ok.inj h)
  have hv : ∀ v, v ∈ vset t.verts → v ∈ vertices t := by
    intro v hv
    rw [mem_vset] at hv
    show v ∈ [0, 1, 2] ++ t.verts
    simp only [List.mem_append, List.mem_cons, List.not_mem_nil, or_false]
    rcases hv with h | h
    · left; omega
    · exact .inr h
  have hc := enclosing_chance k1 k2.sides k3
    (among_of hG.dim ho k2.lt hq (fun a ha b hb hab => hgen a (hv a ha) b (hv b hb) hab)) eps henv' k6.le rounds
  refine hc.trans (share_mono ?_)
  intro c hne
  obtain ⟨r, e1, e2⟩ := hlook (coinsOf c) rounds
  cases r with
  | none => exact absurd e1 hne
  | some o =>
    obtain ⟨f1, f2⟩ := e2 o rfl
    cases o with
    | none => exact absurd ⟨hq.1.le, hq.2.1.le, hq.2.2.le⟩ (f1.1 rfl)
    | some k => exact ⟨k, (f2 k rfl).1, e1⟩

/-- C160: if all tables of coins are equally likely, the constructor on `n` points in general position returns within
`fuel` rounds per walk with probability at least `(1 - (1 - 2^-(3n+3))^⌊fuel / (3n+3)⌋)^n`. -/
theorem C160_construct {env : Env} (henv : Lawful env) {s : Settings} {points : List V2} {order : List Nat}
    (ho : Shuffle points.length order) (hG : GeneralPosition s points) {fuel : Nat}
    (hfuel : 6 * points.length + 16 ≤ fuel) :
    (1 - (1 - 1 / 2 ^ (3 * points.length + 3)) ^ (fuel / (3 * points.length + 3))) ^ points.length ≤
      share fun c : Fin points.length → Fin fuel → Bool =>
        ∃ t l, triangulate ⟨env.first, tableOf 3 c⟩ s points order fuel = .ok (some (t, l)) :=
  triangulate_chance hG ho env henv fuel hfuel

/-- The bound for one walk tends to 1. -/
theorem bound_tendsto {E : Nat} (hE : 0 < E) :
    Filter.Tendsto (fun fuel : Nat => 1 - ((1 : ℝ) - 1 / 2 ^ E) ^ (fuel / E)) Filter.atTop (nhds 1) := by
  have h1 : (0 : ℝ) < 1 / 2 ^ E := by positivity
  have h2 : (1 : ℝ) / 2 ^ E ≤ 1 := by rw [div_le_one (by positivity)]; exact one_le_pow₀ (by norm_num)
  have h3 := (tendsto_pow_atTop_nhds_zero_of_lt_one (r := (1 : ℝ) - 1 / 2 ^ E) (by linarith) (by linarith)).comp
    (Nat.tendsto_div_const_atTop hE.ne')
  simpa using h3.const_sub 1

/-- C160: the probability that a lookup has ended tends to 1. -/
theorem C160_lookup_one {env env' : Env} (henv : Lawful env) (henv' : Lawful env') {s : Settings} {points : List V2}
    {order : List Nat} {fuel : Nat} (ho : Shuffle points.length order) (hG : GeneralPosition s points)
    {t : Triangulation} {l : List Nat} (h : triangulate env s points order fuel = .ok (some (t, l))) (q : V2) (eps : ℝ)
    (hq : Inside (position points order 0) (position points order 1) (position points order 2) q)
    (hgen : ∀ a ∈ vertices t, ∀ b ∈ vertices t, a ≠ b →
      area (position points order a) (position points order b) q ≠ 0) :
    Filter.Tendsto (fun rounds : Nat => share fun c : Fin rounds → Bool =>
      ∃ k ∈ t.allTriangles, enclosingTriangle env' t.mesh (queryAt (position points order) eps q) (coinsOf c) rounds =
        .ok (some (some k))) Filter.atTop (nhds 1) := by
  have hE : 0 < t.allEdges.length := by
    obtain ⟨r, hr, -, g⟩ := triangulate_general henv ho hG fuel
    have h' := h
    rw [hr] at h'
    obtain ⟨-, -, -, -, -, AE, AT, k1, k2, k3, k4, k5, k6⟩ := g t l (Except.ok.inj h')
    exact List.length_pos_of_mem ((k4 _).2 (first_edge k1 k3 henv))
  exact tendsto_of_tendsto_of_tendsto_of_le_of_le (bound_tendsto hE) tendsto_const_nhds
    (fun rounds => C160_lookup henv henv' ho hG h q eps hq hgen rounds) (fun _ => share_le_one _)

/-- C160: the probability that the constructor has returned tends to 1. -/
theorem C160_construct_one {env : Env} (henv : Lawful env) {s : Settings} {points : List V2} {order : List Nat}
    (ho : Shuffle points.length order) (hG : GeneralPosition s points) :
    Filter.Tendsto (fun fuel : Nat => share fun c : Fin points.length → Fin fuel → Bool =>
        ∃ t l, triangulate ⟨env.first, tableOf 3 c⟩ s points order fuel = .ok (some (t, l))) Filter.atTop (nhds 1) := by
  have hb := (bound_tendsto (E := 3 * points.length + 3) (by omega)).pow points.length
  rw [one_pow] at hb
  refine tendsto_of_tendsto_of_tendsto_of_le_of_le' hb tendsto_const_nhds ?_ ?_
  · filter_upwards [Filter.eventually_ge_atTop (6 * points.length + 16)] with fuel hf
    exact C160_construct henv ho hG hf
  · filter_upwards with fuel
    exact share_le_one _

/-- The three points of the demonstration. -/
example : Filter.Tendsto (fun fuel : Nat => share fun c : Fin (demoPoints.map Q2.real).length → Fin fuel → Bool =>
    ∃ t l, triangulate ⟨demoEnv.first, tableOf 3 c⟩ defaultSettings (demoPoints.map Q2.real) [2, 0, 1] fuel =
      .ok (some (t, l))) Filter.atTop (nhds 1) :=
  C160_construct_one demoEnv_lawful (by show [2, 0, 1].Perm [0, 1, 2]; decide) demo_general

/-- The signed area of a triangle with rational coordinates. -/
def areaQ (a b c : Q2) : ℚ := (b.x - a.x) * (c.y - a.y) - (b.y - a.y) * (c.x - a.x)

theorem areaQ_real (a b c : Q2) : area a.real b.real c.real = ((areaQ a b c : ℚ) : ℝ) := by
  unfold area areaQ Q2.real
  push_cast
  ring

/-- A lookup among them. -/
example : ∃ t l, triangulate demoEnv defaultSettings (demoPoints.map Q2.real) [2, 0, 1] 100 = .ok (some (t, l)) ∧
    t.allEdges.length = 12 ∧
    Filter.Tendsto (fun rounds : Nat => share fun c : Fin rounds → Bool =>
      ∃ k ∈ t.allTriangles, enclosingTriangle demoEnv t.mesh
        (queryAt (position (demoPoints.map Q2.real) [2, 0, 1]) 0 (Q2.real ⟨13 / 10, 7 / 10⟩)) (coinsOf c) rounds =
        .ok (some (some k))) Filter.atTop (nhds 1) := by
  obtain ⟨t, l, h, h12, -⟩ := demo_run
  have ho : Shuffle (demoPoints.map Q2.real).length [2, 0, 1] := by show [2, 0, 1].Perm [0, 1, 2]; decide
  refine ⟨t, l, h, h12, C160_lookup_one demoEnv_lawful demoEnv_lawful ho demo_general h _ 0 ?_ ?_⟩
  · rw [position_real]
    unfold Inside
    simp only [areaQ_real]
    norm_cast
    decide +kernel
  · have hlt : ∀ a ∈ vertices t, a < 6 := by
      obtain ⟨r, hr, -, g⟩ := triangulate_general demoEnv_lawful ho demo_general 100
      rw [hr] at h
      obtain ⟨-, -, -, -, -, AE, AT, k1, k2, -⟩ := g t l (Except.ok.inj h)
      intro a ha
      refine k2.lt a ?_
      rw [mem_vset]
      change a ∈ [0, 1, 2] ++ t.verts at ha
      simp only [List.mem_append, List.mem_cons, List.not_mem_nil, or_false] at ha
      rcases ha with h | h
      · left; omega
      · exact .inr h
    have hall : ∀ a < 6, ∀ b < 6, a ≠ b →
        areaQ (positionQ demoPoints [2, 0, 1] a) (positionQ demoPoints [2, 0, 1] b) ⟨13 / 10, 7 / 10⟩ ≠ 0 := by
      decide +kernel
    intro a ha b hb hab
    rw [position_real]
    simp only [areaQ_real]
    exact_mod_cast hall a (hlt a ha) b (hlt b hb) hab

end Mdso.Tri
