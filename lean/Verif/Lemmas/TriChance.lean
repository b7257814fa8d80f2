import Verif.Lemmas.TriWalk
import Verif.Spec.TriChance
import Mathlib.Data.Fin.Tuple.Basic
import Mathlib.Logic.Equiv.Fin.Basic
import Mathlib.Algebra.BigOperators.Field
import Mathlib.Algebra.Order.BigOperators.Group.Finset

/-!
# How likely the random walks end
-/

set_option autoImplicit false

namespace Mdso.Tri

open Mdso.Geom Mdso.Tri.Spec

section
variable {α β : Type} [Fintype α] [Fintype β]

theorem share_nonneg (P : α → Prop) : 0 ≤ share P := by unfold share; positivity

theorem share_le_one (P : α → Prop) : share P ≤ 1 := by
  classical
  unfold share
  apply div_le_one_of_le₀
  · exact_mod_cast Finset.card_le_univ _
  · positivity

theorem share_mono {P Q : α → Prop} (h : ∀ a, P a → Q a) : share P ≤ share Q := by
  classical
  unfold share
  apply div_le_div_of_nonneg_right _ (by positivity)
  exact_mod_cast Finset.card_le_card (Finset.monotone_filter_right _ fun a _ => h a)

theorem share_congr {P Q : α → Prop} (h : ∀ a, P a ↔ Q a) : share P = share Q :=
  le_antisymm (share_mono fun a => (h a).1) (share_mono fun a => (h a).2)

theorem share_equiv (f : α ≃ β) (P : β → Prop) : share P = share fun a => P (f a) := by
  classical
  unfold share
  rw [Fintype.card_congr f]
  congr 2
  refine (Finset.card_bij (fun a _ => f a) ?_ ?_ ?_).symm
  · intro a ha; simpa using ha
  · intro a _ b _ h; exact f.injective h
  · intro b hb; exact ⟨f.symm b, by simpa using hb, by simp⟩

theorem share_true [Nonempty α] {P : α → Prop} (h : ∀ a, P a) : share P = 1 := by
  classical
  unfold share
  rw [Finset.filter_true_of_mem (fun a _ => h a), Finset.card_univ, div_self]
  exact_mod_cast Fintype.card_ne_zero

theorem share_false {P : α → Prop} (h : ∀ a, ¬ P a) : share P = 0 := by
  classical
  unfold share
  rw [Finset.filter_false_of_mem (fun a _ => h a)]
  simp

theorem share_not [Nonempty α] (P : α → Prop) : share P = 1 - share fun a => ¬ P a := by
  classical
  unfold share
  have h := Finset.card_filter_add_card_filter_not (s := (Finset.univ : Finset α)) P
  rw [Finset.card_univ] at h
  have hc : (Fintype.card α : ℝ) ≠ 0 := by exact_mod_cast Fintype.card_ne_zero
  rw [eq_sub_iff_add_eq, ← add_div, div_eq_one_iff_eq hc, ← h]
  push_cast
  congr!

/-- The share of pairs is the mean of the shares. -/
theorem share_prod (P : α × β → Prop) : share P = (∑ a, share fun b => P (a, b)) / Fintype.card α := by
  classical
  unfold share
  rw [← Finset.sum_div, div_div, Fintype.card_prod]
  have : (Finset.univ.filter P).card = ∑ a, (Finset.univ.filter fun b => P (a, b)).card := by
    rw [← Finset.card_sigma]
    refine Finset.card_bij (fun x _ => ⟨x.1, x.2⟩) ?_ ?_ ?_
    · intro x hx; simpa using hx
    · rintro ⟨a, b⟩ _ ⟨c, d⟩ _ h; simpa using h
    · rintro ⟨a, b⟩ h; exact ⟨(a, b), by simpa using h, rfl⟩
  rw [this]
  push_cast
  ring

theorem share_bool (P : Bool × α → Prop) : share P = ((share fun a => P (true, a)) + share fun a => P (false, a)) / 2 := by
  rw [share_prod]; simp

/-- If enough first parts leave enough second parts, there are enough pairs. -/
theorem share_pairs {P : α × β → Prop} {Q : α → Prop} {γ δ : ℝ} (hδ : 0 ≤ δ) (hQ : γ ≤ share Q)
    (h : ∀ a, Q a → δ ≤ share fun b => P (a, b)) : γ * δ ≤ share P := by
  classical
  rw [share_prod]
  refine le_trans (mul_le_mul_of_nonneg_right hQ hδ) ?_
  unfold share at hQ ⊢
  rw [div_mul_eq_mul_div]
  apply div_le_div_of_nonneg_right _ (by positivity)
  rw [← nsmul_eq_mul, ← Finset.sum_const, Finset.sum_filter]
  apply Finset.sum_le_sum
  intro a _
  by_cases ha : Q a
  · rw [if_pos ha]; exact h a ha
  · rw [if_neg ha]; positivity

end

/-- The walk as an automaton: either it ends at an edge, or the coin decides to which edge it goes. -/
theorem walk_auto {m : Mesh} {V AE AT : Finset Nat} (h : Inv m V AE AT) (q : Query) :
    ∃ (done : Nat → Option Nat) (next : Nat → Bool → Nat), (∀ e ∈ AE, ∀ b, next e b ∈ AE) ∧
      ∀ e ∈ AE, ∀ (coin : Nat → Bool) (fuel : Nat),
        (∀ t, done e = some t → walk m q coin (fuel + 1) e = .ok (some t)) ∧
        (done e = none → walk m q coin (fuel + 1) e = walk m q coin fuel (next e (coin fuel))) := by
  have key : ∀ e, ∃ (d : Option Nat) (nx : Bool → Nat), e ∈ AE → (∀ b, nx b ∈ AE) ∧ ∀ (coin : Nat → Bool) (fuel : Nat),
      (∀ t, d = some t → walk m q coin (fuel + 1) e = .ok (some t)) ∧
      (d = none → walk m q coin (fuel + 1) e = walk m q coin fuel (nx (coin fuel))) := by
    intro e
    by_cases he : e ∈ AE
    · obtain ⟨t, ht, hn, hes⟩ := nextTri_spec h q he
      obtain ⟨x0, x1, hf, hx0, hx1⟩ := filter_sides h ht hes
      obtain ⟨w0, hw0⟩ := isPossibleWay_ok h q ht hx0
      obtain ⟨w1, hw1⟩ := isPossibleWay_ok h q ht hx1
      have hE : ∀ x ∈ sides m t, x ∈ AE := by
        intro x hx
        obtain ⟨i, rfl⟩ := mem_sides.1 hx
        exact (h.side t ht i).1
      by_cases hc : doesContain m q t = true
      · refine ⟨some t, fun _ => e, fun _ => ⟨fun _ => he, fun coin fuel => ⟨?_, by simp⟩⟩⟩
        rintro t' ht'
        cases ht'
        unfold walk
        simp only [hn, bind, Except.bind, hf, hw0, hw1]
        rw [if_pos hc]
      · refine ⟨none, fun b => nextEdge e x0 x1 w0 w1 b, fun _ => ⟨?_, fun coin fuel => ⟨by simp, fun _ => ?_⟩⟩⟩
        · intro b
          have := hE x0 hx0
          have := hE x1 hx1
          cases w0 <;> cases w1 <;> cases b <;> simp [nextEdge, *]
        · conv_lhs => unfold walk
          simp only [hn, bind, Except.bind, hf, hw0, hw1]
          rw [if_neg hc]
    · exact ⟨none, fun _ => 0, fun h => absurd h he⟩
  choose done next hk using key
  exact ⟨done, next, fun e he b => (hk e he).1 b, fun e he coin fuel => (hk e he).2 coin fuel⟩

/-- The share of the sequences of `fuel` coins that leave the walk from `e` unfinished. -/
noncomputable def unfinished (m : Mesh) (q : Query) (fuel e : Nat) : ℝ :=
  share fun c : Fin fuel → Bool => walk m q (coinsOf c) fuel e = .ok none

theorem coinsOf_snoc_last {n : Nat} (c : Fin n → Bool) (b : Bool) : coinsOf (Fin.snoc c b : Fin (n + 1) → Bool) n = b := by
  unfold coinsOf
  rw [dif_pos (by omega)]
  exact Fin.snoc_last (α := fun _ => Bool) b c

theorem coinsOf_snoc_lt {n : Nat} (c : Fin n → Bool) (b : Bool) {i : Nat} (hi : i < n) :
    coinsOf (Fin.snoc c b : Fin (n + 1) → Bool) i = coinsOf c i := by
  unfold coinsOf
  rw [dif_pos (by omega), dif_pos hi]
  exact Fin.snoc_castSucc (α := fun _ => Bool) b c ⟨i, hi⟩

theorem unfinished_step {m : Mesh} {V AE AT : Finset Nat} (h : Inv m V AE AT) (q : Query) :
    ∃ (done : Nat → Option Nat) (next : Nat → Bool → Nat), (∀ e ∈ AE, ∀ b, next e b ∈ AE) ∧
      (∀ e ∈ AE, ∀ (coin : Nat → Bool) (fuel : Nat), done e = none →
        walk m q coin (fuel + 1) e = walk m q coin fuel (next e (coin fuel))) ∧
      ∀ e ∈ AE, ∀ fuel, (done e ≠ none → unfinished m q (fuel + 1) e = 0) ∧
        (done e = none → unfinished m q (fuel + 1) e = (unfinished m q fuel (next e true) + unfinished m q fuel (next e false)) / 2) := by
  obtain ⟨done, next, h1, h2⟩ := walk_auto h q
  refine ⟨done, next, h1, fun e he coin fuel hd => (h2 e he coin fuel).2 hd, ?_⟩
  intro e he fuel
  constructor
  · intro hd
    apply share_false
    intro c hc
    obtain ⟨t, ht⟩ := Option.ne_none_iff_exists'.1 hd
    rw [(h2 e he _ fuel).1 t ht] at hc
    cases hc
  · intro hd
    unfold unfinished
    rw [share_equiv (Fin.snocEquiv fun _ : Fin (fuel + 1) => Bool), share_bool]
    have key : ∀ b, (share fun c : Fin fuel → Bool =>
        walk m q (coinsOf ((Fin.snocEquiv fun _ : Fin (fuel + 1) => Bool) (b, c))) (fuel + 1) e = .ok none) =
        share fun c : Fin fuel → Bool => walk m q (coinsOf c) fuel (next e b) = .ok none := by
      intro b
      apply share_congr
      intro c
      have e1 : ((Fin.snocEquiv fun _ : Fin (fuel + 1) => Bool) (b, c)) = (Fin.snoc c b : Fin (fuel + 1) → Bool) := rfl
      rw [e1, (h2 e he _ fuel).2 hd, coinsOf_snoc_last]
      rw [walk_congr m q fuel (next e b) (coin' := coinsOf c) (fun i hi => coinsOf_snoc_lt c b hi)]
    rw [key true, key false]

theorem unfinished_nonneg (m : Mesh) (q : Query) (fuel e : Nat) : 0 ≤ unfinished m q fuel e := share_nonneg _

theorem unfinished_le_one (m : Mesh) (q : Query) (fuel e : Nat) : unfinished m q fuel e ≤ 1 := share_le_one _

theorem unfinished_zero (m : Mesh) (q : Query) (e : Nat) : unfinished m q 0 e = 1 := share_true fun _ => rfl

/-- After a first part, the walk is unfinished at most as likely as from the worst edge. -/
theorem unfinished_add {m : Mesh} {V AE AT : Finset Nat} (h : Inv m V AE AT) (q : Query) {a : Nat} {M : ℝ}
    (hM : ∀ e ∈ AE, unfinished m q a e ≤ M) : ∀ b, ∀ e ∈ AE, unfinished m q (a + b) e ≤ M * unfinished m q b e := by
  obtain ⟨done, next, h1, -, h2⟩ := unfinished_step h q
  intro b
  induction b with
  | zero => intro e he; rw [unfinished_zero, mul_one]; exact hM e he
  | succ b ih =>
    intro e he
    by_cases hd : done e = none
    · rw [← add_assoc, (h2 e he _).2 hd, (h2 e he _).2 hd]
      have i1 := ih _ (h1 e he true)
      have i2 := ih _ (h1 e he false)
      linarith
    · rw [← add_assoc, (h2 e he _).1 hd, (h2 e he _).1 hd, mul_zero]

/-- If one sequence ends the walk, the share of those that do not is less than 1. -/
theorem unfinished_lt {m : Mesh} {V AE AT : Finset Nat} (h : Inv m V AE AT) (q : Query) : ∀ (fuel e : Nat), e ∈ AE →
    (∃ coin t, walk m q coin fuel e = .ok (some t)) → unfinished m q fuel e ≤ 1 - 1 / 2 ^ fuel := by
  obtain ⟨done, next, h1, hw, h2⟩ := unfinished_step h q
  intro fuel
  induction fuel with
  | zero => rintro e he ⟨coin, t, ht⟩; cases ht
  | succ fuel ih =>
    rintro e he ⟨coin, t, ht⟩
    have hp : (1 : ℝ) / 2 ^ (fuel + 1) = 1 / 2 ^ fuel / 2 := by rw [pow_succ]; field_simp
    have hle : (1 : ℝ) / 2 ^ fuel ≤ 1 := by
      rw [div_le_one (by positivity)]; exact one_le_pow₀ (by norm_num)
    by_cases hd : done e = none
    · rw [(h2 e he _).2 hd, hp]
      rw [hw e he coin fuel hd] at ht
      have i1 := ih _ (h1 e he (coin fuel)) ⟨coin, t, ht⟩
      have i2 := unfinished_le_one m q fuel (next e true)
      have i3 := unfinished_le_one m q fuel (next e false)
      cases hb : coin fuel
      · rw [hb] at i1; linarith
      · rw [hb] at i1; linarith
    · rw [(h2 e he _).1 hd, hp]
      linarith

/-- The chance that a walk is unfinished falls exponentially. -/
theorem unfinished_bound {pos : Nat → V2} {m : Mesh} {V AE AT : Finset Nat} (h : Inv m V AE AT) (hS : Sides pos m AE) {q : V2}
    (hq : Among pos V q) (eps : ℝ) {L : Nat} (hL : AE.card ≤ L) : ∀ fuel, ∀ e ∈ AE,
      unfinished m (queryAt pos eps q) fuel e ≤ (1 - 1 / 2 ^ L) ^ (fuel / L) := by
  have hblock : ∀ e ∈ AE, unfinished m (queryAt pos eps q) L e ≤ 1 - 1 / 2 ^ L := fun e he =>
    unfinished_lt h _ L e he (walk_ends h hS hq eps he hL)
  have hn : (0 : ℝ) ≤ 1 - 1 / 2 ^ L := by
    rw [sub_nonneg, div_le_one (by positivity)]; exact one_le_pow₀ (by norm_num)
  have hmul : ∀ n, ∀ e ∈ AE, unfinished m (queryAt pos eps q) (L * n) e ≤ (1 - 1 / 2 ^ L) ^ n := by
    intro n
    induction n with
    | zero => intro e he; simpa using unfinished_le_one m _ 0 e
    | succ n ih =>
      intro e he
      have := unfinished_add h (queryAt pos eps q) ih L e he
      rw [Nat.mul_succ, pow_succ]
      exact this.trans (mul_le_mul_of_nonneg_left (hblock e he) (pow_nonneg hn _))
  intro fuel e he
  have := unfinished_add h (queryAt pos eps q) (hmul (fuel / L)) (fuel % L) e he
  rw [Nat.div_add_mod] at this
  refine this.trans ?_
  have h1 := unfinished_le_one m (queryAt pos eps q) (fuel % L) e
  have := mul_le_mul_of_nonneg_left h1 (pow_nonneg hn (fuel / L))
  rwa [mul_one] at this

/-- A lookup is finished if its walk is. -/
theorem enclosing_finished {m : Mesh} {q : Query} {coin : Nat → Bool} {fuel : Nat} {env : Env}
    (h : walk m q coin fuel (env.first (m.vE 0)) ≠ .ok none) : enclosingTriangle env m q coin fuel ≠ .ok none := by
  unfold enclosingTriangle
  simp only
  split
  · split
    · simp
    · split
      · simp
      · cases hw : walk m q coin fuel (env.first (m.vE 0)) with
        | error f => simp
        | ok o =>
          cases o with
          | none => exact absurd hw h
          | some t => simp
  · simp

theorem first_edge {m : Mesh} {V AE AT : Finset Nat} (h : Inv m V AE AT) (hO : Outer m AE) {env : Env} (henv : Lawful env) :
    env.first (m.vE 0) ∈ AE := by
  have hmem : env.first (m.vE 0) ∈ m.vE 0 := by
    apply henv
    refine ⟨0, (h.vE 0 0).2 ⟨(hO 0 (by omega)).1, 0, ?_⟩⟩
    rw [(hO 0 (by omega)).2.1]
    rfl
  exact ((h.vE _ _).1 hmem).1

theorem enclosing_chance {pos : Nat → V2} {m : Mesh} {V AE AT : Finset Nat} (h : Inv m V AE AT) (hS : Sides pos m AE)
    (hO : Outer m AE) {q : V2} (hq : Among pos V q) (eps : ℝ) {env : Env} (henv : Lawful env) {L : Nat} (hL : AE.card ≤ L) (fuel : Nat) :
    1 - (1 - 1 / 2 ^ L) ^ (fuel / L) ≤ share fun c : Fin fuel → Bool =>
      enclosingTriangle env m (queryAt pos eps q) (coinsOf c) fuel ≠ .ok none := by
  rw [share_not]
  have h1 := unfinished_bound h hS hq eps hL fuel _ (first_edge h hO henv)
  have h2 : (share fun c : Fin fuel → Bool => ¬ enclosingTriangle env m (queryAt pos eps q) (coinsOf c) fuel ≠ .ok none) ≤
      unfinished m (queryAt pos eps q) fuel (env.first (m.vE 0)) := by
    apply share_mono
    intro c hc
    by_contra hw
    exact hc (enclosing_finished hw)
  linarith

theorem tableOf_first (first : Nat) {k n : Nat} (c : Fin n → Bool) (cs : Fin k → Fin n → Bool) :
    tableOf first (Fin.cons c cs : Fin (k + 1) → Fin n → Bool) first = coinsOf c := by
  unfold tableOf
  rw [dif_pos ⟨le_refl _, by omega⟩]
  congr 1
  have : (⟨first - first, by omega⟩ : Fin (k + 1)) = 0 := by ext; simp
  rw [this]
  rfl

theorem tableOf_later (first : Nat) {k n : Nat} (c : Fin n → Bool) (cs : Fin k → Fin n → Bool) {v : Nat} (hv : first < v) :
    tableOf first (Fin.cons c cs : Fin (k + 1) → Fin n → Bool) v = tableOf (first + 1) cs v := by
  unfold tableOf
  by_cases h : v - (first + 1) < k
  · rw [dif_pos ⟨by omega, by omega⟩, dif_pos ⟨by omega, h⟩]
    congr 1
    have : (⟨v - first, by omega⟩ : Fin (k + 1)) = Fin.succ ⟨v - (first + 1), h⟩ := by ext; simp; omega
    rw [this]
    rfl
  · rw [dif_neg (by omega), dif_neg (by omega)]

/-- The chance that the insertion of the remaining points is finished. -/
theorem insertAll_chance {s : Settings} {points : List V2} {order0 : List Nat} (hG : GeneralPosition s points)
    (ho : Shuffle points.length order0) (env : Env) (henv : Lawful env) (fuel : Nat)
    (hfuel : 6 * points.length + 16 ≤ fuel) (all : List Nat) (p : Preds)
    (hp : p = predsAt (position points order0) (s.epsPointIsOnSegment * maxDim points)
      (s.epsSamePoints * maxDim points)) :
    ∀ (order : List Nat) (i : Nat) (st : State), i + order.length = points.length → st.verts = List.range' 3 i →
      Built (Geo (position points order0) (3 + points.length)) st.verts st.mesh →
      (1 - (1 - 1 / 2 ^ (3 * points.length + 3)) ^ (fuel / (3 * points.length + 3))) ^ order.length ≤
        share fun c : Fin order.length → Fin fuel → Bool =>
          ∃ st', insertAll ⟨env.first, tableOf (3 + i) c⟩ p fuel all order i st = .ok (some st') := by
  have hN := general_noncol hG ho
  have hA := general_apart hG ho
  have hK := keeps_geo _ _ _ _ hN hA
  rw [← hp] at hA hK
  obtain ⟨δ, hδ⟩ : ∃ δ : ℝ, δ = 1 - (1 - 1 / 2 ^ (3 * points.length + 3)) ^ (fuel / (3 * points.length + 3)) := ⟨_, rfl⟩
  have hδ0 : 0 ≤ δ := by
    rw [hδ, sub_nonneg]
    apply pow_le_one₀
    · rw [sub_nonneg, div_le_one (by positivity)]; exact one_le_pow₀ (by norm_num)
    · have : (0 : ℝ) < 1 / 2 ^ (3 * points.length + 3) := by positivity
      linarith
  rw [← hδ]
  intro order
  induction order with
  | nil =>
    intro i st _ _ _
    rw [share_true fun c => ⟨st, rfl⟩]
    simp
  | cons k order ih =>
    intro i st hi hv hb
    simp only [List.length_cons] at hi
    obtain ⟨AE, AT, h1, h2, h3, h4, h5⟩ := hb
    have hmem : ∀ w, w ∈ vset st.verts ↔ w < 3 + i := by
      intro w
      rw [mem_vset, hv, List.mem_range'_1]
      omega
    have hlen : st.verts.length = i := by rw [hv]; simp
    have hvn : 3 + i ∉ vset st.verts := by rw [hmem]; omega
    have hin : Inside (position points order0 0) (position points order0 1) (position points order0 2)
        (position points order0 (3 + i)) := by
      obtain ⟨b0, b1, b2, b3⟩ := inside_bounding hG.dim (position_mem ho (v := 3 + i) (by omega) (by omega))
      rw [position_bound points order0 (by omega : 0 < 3), position_bound points order0 (by omega : 1 < 3),
        position_bound points order0 (by omega : 2 < 3), inside_pos b0]
      exact ⟨b2, b3, b1⟩
    have hamong := among_of hG.dim ho (V := vset st.verts) (fun v hv => by rw [hmem] at hv; omega) hin (by
      intro a ha b hb hab
      rw [hmem] at ha hb
      exact hN a b (3 + i) (by omega) (by omega) (by omega) hab (by omega) (by omega))
    have hfirst := enclosing_chance h1 h2.sides h3 hamong (s.epsPointIsOnSegment * maxDim points) henv
      (L := 3 * points.length + 3) (by rw [h4, hlen]; omega) fuel
    rw [← hδ] at hfirst
    rw [show (k :: order).length = order.length + 1 from rfl, share_equiv (Fin.consEquiv fun _ : Fin (order.length + 1) => Fin fuel → Bool),
      pow_succ']
    apply share_pairs (pow_nonneg hδ0 _) hfirst
    intro coin hcoin
    obtain ⟨env1, henv1⟩ : ∃ env1 : Env, env1 = ⟨env.first, fun _ => coinsOf coin⟩ := ⟨_, rfl⟩
    have hlaw1 : Lawful env1 := by rw [henv1]; exact henv
    have hcoin1 : enclosingTriangle env1 st.mesh (p.query (3 + i)) (env1.coin (3 + i)) fuel ≠ .ok none := by
      rw [henv1, hp]
      exact hcoin
    rcases addPoint_spec hK h1 h2 h3 hvn (by omega) env1 hlaw1 fuel with ⟨-, h | ⟨e, he, h⟩⟩ | ⟨r, hr, hnone, hcase⟩
    · rw [hA.bound (3 + i) (by omega) (by omega)] at h
      cases h
    · have ha := (hmem _).1 (h1.endV e he 0)
      have hb := (hmem _).1 (h1.endV e he 1)
      rw [hA.onEdge (3 + i) _ _ (by omega) (by omega) (by omega) (by omega) ha.ne hb.ne (h1.ends e he)] at h
      cases h
    · cases r with
      | none => exact absurd rfl (hnone (by rw [h4, hlen]; omega) hcoin1)
      | some x =>
        obtain ⟨w, m⟩ := x
        rcases hcase w m rfl with ⟨c1, c2, c3, c4⟩ | ⟨rfl, c2⟩
        · have hw := (hmem w).1 c3
          rw [hA.equal (3 + i) w (by omega) (by omega) (by omega) hw.ne] at c4
          cases c4
        · refine (ih (i + 1) ⟨st.verts ++ [3 + i], m, st.inv.set k (i + 3)⟩ (by omega)
            (by rw [hv, List.range'_concat]; simp) (c2.built h4 h5)).trans ?_
          apply share_mono
          rintro cs ⟨st', g⟩
          refine ⟨st', ?_⟩
          have e1 : (Fin.consEquiv fun _ : Fin (order.length + 1) => Fin fuel → Bool) (coin, cs) =
            (Fin.cons coin cs : Fin (order.length + 1) → Fin fuel → Bool) := rfl
          rw [e1]
          unfold insertAll
          rw [addPoint_congr (env' := env1) p st.mesh (3 + i) fuel (by rw [henv1]) (by
            rw [henv1]; exact tableOf_first _ _ _), hr]
          simp only [if_true]
          rw [← g]
          apply insertAll_congr
          · rfl
          · intro v hv
            exact tableOf_later _ _ _ (by omega)

/-- The chance that the constructor is finished. -/
theorem triangulate_chance {s : Settings} {points : List V2} {order : List Nat} (hG : GeneralPosition s points)
    (ho : Shuffle points.length order) (env : Env) (henv : Lawful env) (fuel : Nat)
    (hfuel : 6 * points.length + 16 ≤ fuel) :
    (1 - (1 - 1 / 2 ^ (3 * points.length + 3)) ^ (fuel / (3 * points.length + 3))) ^ points.length ≤
      share fun c : Fin points.length → Fin fuel → Bool =>
        ∃ t l, triangulate ⟨env.first, tableOf 3 c⟩ s points order fuel = .ok (some (t, l)) := by
  have hlen : order.length = points.length := by rw [ho.length_eq]; simp
  have key := insertAll_chance hG ho env henv fuel hfuel order _ rfl order 0
    ⟨[], initial, List.replicate order.length 0⟩ (by omega) rfl (initial_built (geo_initial _ (by omega)))
  rw [hlen] at key
  refine key.trans (share_mono ?_)
  rintro c ⟨st, h⟩
  have henv' : Lawful ⟨env.first, tableOf 3 c⟩ := henv
  obtain ⟨r, hr, -, -⟩ := triangulate_general henv' ho hG fuel
  cases r with
  | some r => exact ⟨r.1, r.2, hr⟩
  | none =>
    unfold triangulate construct at hr
    rw [hlen] at hr
    rw [h] at hr
    simp only at hr
    split at hr
    · cases hr
    · cases hr

end Mdso.Tri
