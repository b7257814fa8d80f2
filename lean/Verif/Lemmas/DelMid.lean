import Verif.Lemmas.DelMesh

/-!
# The triangles during the insertion of a vertex
-/

set_option autoImplicit false

namespace Mdso.Tri

open Mdso.Geom Mdso.Tri.Spec

/-- The edge `a b` between the new vertex `v` and `w` needs no flip. -/
def Leg (pos : Nat → V2) (v a b w : Nat) : Prop :=
  (3 ≤ a → 3 ≤ b → 3 ≤ w → 0 ≤ pow (pos a) (pos b) (pos w) (pos v)) ∧
  (3 ≤ a → b < 3 → area (pos a) (pos w) (pos v) * area (pos a) (pos w) (pos b) ≤ 0) ∧
  (3 ≤ b → a < 3 → area (pos b) (pos w) (pos v) * area (pos b) (pos w) (pos a) ≤ 0)

theorem Leg.symm {pos : Nat → V2} {v a b w : Nat} (h : Leg pos v a b w) : Leg pos v b a w :=
  ⟨fun h1 h2 h3 => by rw [pow_swap]; exact h.1 h2 h1 h3, h.2.2, h.2.1⟩

/-- The triangles `T` while `v` is inserted into `T0`, when the edges `E` are still to be looked at. -/
structure Mid (pos : Nat → V2) (v : Nat) (T0 T : Nat → Nat → Nat → Prop) (E : Nat → Nat → Prop) : Prop where
  old : ∀ {a b c}, T a b c → a ≠ v → b ≠ v → c ≠ v → T0 a b c
  star : ∀ {a b}, T a b v → ∃ c, T0 a b c ∧ ¬T a b c ∧ 0 < area (pos a) (pos b) (pos c) * area (pos a) (pos b) (pos v)
  gone0 : ∀ {a b c}, T0 a b c → ¬T a b c → 3 ≤ a → 3 ≤ b → 3 ≤ c → pow (pos a) (pos b) (pos c) (pos v) ≤ 0
  gone1 : ∀ {a b x}, T0 a b x → ¬T a b x → 3 ≤ a → 3 ≤ b → x < 3 →
    0 < area (pos a) (pos b) (pos x) * area (pos a) (pos b) (pos v)
  pend : ∀ {a b w}, T a b v → T a b w → w ≠ v → E a b ∨ Leg pos v a b w

variable {pos : Nat → V2} {v : Nat} {T0 T : Nat → Nat → Nat → Prop} {E : Nat → Nat → Prop}

theorem Mid.step {V : Finset Nat} (h : Mid pos v T0 T E) (hE : ∀ a b, ¬E a b) : Step pos V v T0 T where
  old := h.old
  star := h.star
  gone0 := h.gone0
  gone1 := h.gone1
  legal0 := fun h1 h2 h3 => ((h.pend h1 h2 h3).resolve_left (hE _ _)).1
  legal1 := fun h1 h2 h3 => ((h.pend h1 h2 h3).resolve_left (hE _ _)).2.1

theorem Mid.pop {E' : Nat → Nat → Prop} (h : Mid pos v T0 T E)
    (hE : ∀ a b w, T a b v → T a b w → w ≠ v → E a b → E' a b ∨ Leg pos v a b w) : Mid pos v T0 T E' where
  old := h.old
  star := h.star
  gone0 := h.gone0
  gone1 := h.gone1
  pend := by
    intro a b w h1 h2 h3
    rcases h.pend h1 h2 h3 with h4 | h4
    · exact hE a b w h1 h2 h3 h4
    · exact .inr h4

theorem pow_is {x y z a b c : Nat} (h : Is x y z a b c) (q : V2) :
    pow (pos x) (pos y) (pos z) q = pow (pos a) (pos b) (pos c) q := by
  obtain ⟨h1 | h1 | h1, h2 | h2 | h2, h3 | h3 | h3, n1, n2, n3⟩ := h <;> subst h1 h2 h3 <;>
    first
      | exact absurd rfl n1
      | exact absurd rfl n2
      | exact absurd rfl n3
      | rfl
      | exact pow_swap _ _ _ _
      | exact pow_rot _ _ _ _
      | (rw [pow_rot, pow_rot]; done)
      | (rw [pow_swap, pow_rot]; done)
      | (rw [pow_swap, pow_rot, pow_rot]; done)

theorem inside_is {x y z a b c : Nat} (h : Is x y z a b c) {q : V2} (hq : Inside (pos a) (pos b) (pos c) q) :
    Inside (pos x) (pos y) (pos z) q := by
  have r1 := inside_rot.1 hq
  have r2 := inside_rot.1 r1
  obtain ⟨h1 | h1 | h1, h2 | h2 | h2, h3 | h3 | h3, n1, n2, n3⟩ := h <;> subst h1 h2 h3 <;>
    first
      | exact absurd rfl n1
      | exact absurd rfl n2
      | exact absurd rfl n3
      | exact hq
      | exact r1
      | exact r2
      | exact inside_swap.1 hq
      | exact inside_swap.1 r1
      | exact inside_swap.1 r2

/-- After the division of a triangle. -/
theorem mid_divide {V : Finset Nat} {a b c : Nat} (hT : Tess pos V T0) (hv : v ∉ V) (habc : T0 a b c)
    (hin : Inside (pos a) (pos b) (pos c) (pos v))
    (hT' : ∀ x y z, T x y z ↔ (T0 x y z ∧ ¬Is x y z a b c) ∨ Is x y z b c v ∨ Is x y z c a v ∨ Is x y z a b v)
    (hE : ∀ x y, x ≠ y → (x = a ∨ x = b ∨ x = c) → (y = a ∨ y = b ∨ y = c) → E x y) :
    Mid pos v T0 T E := by
  have hva : a ≠ v := fun hh => hv (hh ▸ hT.mem habc)
  have hvb : b ≠ v := fun hh => hv (hh ▸ hT.mem2 habc)
  have hvc : c ≠ v := fun hh => hv (hh ▸ hT.mem3 habc)
  have hab := hT.ne habc
  have hbc := hT.ne2 habc
  have hac := hT.ne3 habc
  have hgone : ∀ {x y z}, T0 x y z → ¬T x y z → Is x y z a b c := by
    intro x y z h1 h2
    by_contra h3
    exact h2 ((hT' x y z).2 (.inl ⟨h1, h3⟩))
  have hstar : ∀ {x y}, T x y v → x ≠ y ∧ (x = a ∨ x = b ∨ x = c) ∧ (y = a ∨ y = b ∨ y = c) := by
    intro x y h
    rcases (hT' x y v).1 h with ⟨h1, -⟩ | h1 | h1 | h1
    · exact absurd (hT.mem3 h1) hv
    · unfold Is at h1; grind
    · unfold Is at h1; grind
    · unfold Is at h1; grind
  refine ⟨?_, ?_, ?_, ?_, ?_⟩
  · intro x y z h hx hy hz
    rcases (hT' x y z).1 h with ⟨h1, -⟩ | h1 | h1 | h1
    · exact h1
    · unfold Is at h1; grind
    · unfold Is at h1; grind
    · unfold Is at h1; grind
  · intro x y h
    obtain ⟨hxy, hx, hy⟩ := hstar h
    obtain ⟨z, hz, hxz, hyz⟩ : ∃ z, (z = a ∨ z = b ∨ z = c) ∧ x ≠ z ∧ y ≠ z := by
      rcases hx with rfl | rfl | rfl <;> rcases hy with rfl | rfl | rfl
      · exact absurd rfl hxy
      · exact ⟨c, by simp, hac, hbc⟩
      · exact ⟨b, by simp, hab, hbc.symm⟩
      · exact ⟨c, by simp, hbc, hac⟩
      · exact absurd rfl hxy
      · exact ⟨a, by simp, hab.symm, hac.symm⟩
      · exact ⟨b, by simp, hbc.symm, hab⟩
      · exact ⟨a, by simp, hac.symm, hab.symm⟩
      · exact absurd rfl hxy
    have his : Is x y z a b c := ⟨hx, hy, hz, hxy, hxz, hyz⟩
    refine ⟨z, ?_, ?_, ?_⟩
    · obtain ⟨h1 | h1 | h1, h2 | h2 | h2, h3 | h3 | h3, n1, n2, n3⟩ := his <;> subst h1 h2 h3 <;>
        first
          | exact absurd rfl n1
          | exact absurd rfl n2
          | exact absurd rfl n3
          | exact habc
          | exact hT.rot habc
          | exact hT.rot (hT.rot habc)
          | exact hT.swap habc
          | exact hT.swap (hT.rot habc)
          | exact hT.swap (hT.rot (hT.rot habc))
    · intro hh
      rcases (hT' x y z).1 hh with ⟨-, h1⟩ | h1 | h1 | h1
      · exact h1 his
      · unfold Is at h1; grind
      · unfold Is at h1; grind
      · unfold Is at h1; grind
    · exact (inside_is his hin).2.2
  · intro x y z h1 h2 _ _ _
    rw [pow_is (hgone h1 h2)]
    exact (pow_inside hin).le
  · intro x y z h1 h2 _ _ _
    exact (inside_is (hgone h1 h2) hin).2.2
  · intro x y w h _ _
    obtain ⟨hxy, hx, hy⟩ := hstar h
    exact .inl (hE x y hxy hx hy)

/-- After a flip of the edge `a b` between `v` and `o`. -/
theorem mid_flip {V : Finset Nat} {T' : Nat → Nat → Nat → Prop} {E' : Nat → Nat → Prop} {a b o : Nat}
    (hT0 : Tess pos V T0) (hv : v ∉ V) (hT : Tess pos (insert v V) T)
    (h : Mid pos v T0 T E) (habo : T a b o) (ha : a ≠ v) (hb : b ≠ v) (ho : o ≠ v)
    (hT' : ∀ x y z, T' x y z ↔ (T x y z ∧ ¬Is x y z a b v ∧ ¬Is x y z a b o) ∨ Is x y z v o a ∨ Is x y z v o b)
    (s1 : 0 < area (pos o) (pos a) (pos b) * area (pos o) (pos a) (pos v))
    (s2 : 0 < area (pos o) (pos b) (pos a) * area (pos o) (pos b) (pos v))
    (hp : 3 ≤ a → 3 ≤ b → 3 ≤ o → pow (pos a) (pos b) (pos o) (pos v) ≤ 0)
    (hbd : ¬(3 ≤ a ∧ 3 ≤ b ∧ o < 3))
    (hE : ∀ x y, E x y → ¬((x = a ∧ y = b) ∨ (x = b ∧ y = a)) → E' x y)
    (hEa : E' o a ∧ E' a o) (hEb : E' o b ∧ E' b o) : Mid pos v T0 T' E' := by
  have hab := hT.ne habo
  have hbo := hT.ne2 habo
  have hao := hT.ne3 habo
  have habo0 : T0 a b o := h.old habo ha hb ho
  have hnv : ∀ {x y z}, T0 x y z → x ≠ v ∧ y ≠ v ∧ z ≠ v := fun k =>
    ⟨fun hh => hv (hh ▸ hT0.mem k), fun hh => hv (hh ▸ hT0.mem2 k), fun hh => hv (hh ▸ hT0.mem3 k)⟩
  have hkept : ∀ {x y z}, T' x y z → x ≠ v → y ≠ v → z ≠ v → T x y z ∧ ¬Is x y z a b o := by
    intro x y z k hx hy hz
    rcases (hT' x y z).1 k with k | k | k
    · exact ⟨k.1, k.2.2⟩
    · unfold Is at k; grind
    · unfold Is at k; grind
  have hgone : ∀ {x y z}, T0 x y z → ¬T' x y z → T x y z → Is x y z a b o := by
    intro x y z k1 k2 k3
    by_contra hh
    obtain ⟨nx, ny, nz⟩ := hnv k1
    refine k2 ((hT' x y z).2 (.inl ⟨k3, ?_, hh⟩))
    unfold Is
    grind
  refine ⟨?_, ?_, ?_, ?_, ?_⟩
  · intro x y z k hx hy hz
    exact h.old (hkept k hx hy hz).1 hx hy hz
  · intro x y k
    have key : ∀ p, p = a ∨ p = b → ∃ c, T0 o p c ∧ ¬T' o p c ∧ 0 < area (pos o) (pos p) (pos c) * area (pos o) (pos p) (pos v) := by
      rintro p (rfl | rfl)
      · refine ⟨b, hT0.rot (hT0.rot habo0), fun hh => ?_, s1⟩
        exact (hkept hh ho ha hb).2 (by unfold Is; grind)
      · refine ⟨a, hT0.rot (hT0.rot (hT0.swap habo0)), fun hh => ?_, s2⟩
        exact (hkept hh ho hb ha).2 (by unfold Is; grind)
    have key' : ∀ p, p = a ∨ p = b → ∃ c, T0 p o c ∧ ¬T' p o c ∧ 0 < area (pos p) (pos o) (pos c) * area (pos p) (pos o) (pos v) := by
      rintro p (rfl | rfl)
      · refine ⟨b, hT0.swap (hT0.rot (hT0.rot habo0)), fun hh => ?_, ?_⟩
        · exact (hkept hh ha ho hb).2 (by unfold Is; grind)
        · rw [area_swap (pos o), area_swap (pos o), neg_mul_neg]; exact s1
      · refine ⟨a, hT0.swap (hT0.rot (hT0.rot (hT0.swap habo0))), fun hh => ?_, ?_⟩
        · exact (hkept hh hb ho ha).2 (by unfold Is; grind)
        · rw [area_swap (pos o), area_swap (pos o), neg_mul_neg]; exact s2
    rcases (hT' x y v).1 k with ⟨k, -, -⟩ | k | k
    · obtain ⟨c, c1, c2, c3⟩ := h.star k
      obtain ⟨nx, ny, nz⟩ := hnv c1
      exact ⟨c, c1, fun hh => c2 (hkept hh nx ny nz).1, c3⟩
    · have : (x = o ∧ y = a) ∨ (x = a ∧ y = o) := by unfold Is at k; grind
      rcases this with ⟨rfl, rfl⟩ | ⟨rfl, rfl⟩
      · exact key _ (.inl rfl)
      · exact key' _ (.inl rfl)
    · have : (x = o ∧ y = b) ∨ (x = b ∧ y = o) := by unfold Is at k; grind
      rcases this with ⟨rfl, rfl⟩ | ⟨rfl, rfl⟩
      · exact key _ (.inr rfl)
      · exact key' _ (.inr rfl)
  · intro x y z k1 k2 h1 h2 h3
    by_cases k3 : T x y z
    · have his := hgone k1 k2 k3
      rw [pow_is his]
      apply hp <;> (unfold Is at his; grind)
    · exact h.gone0 k1 k3 h1 h2 h3
  · intro x y z k1 k2 h1 h2 h3
    by_cases k3 : T x y z
    · have his := hgone k1 k2 k3
      have : (x = o ∧ y = b ∧ z = a) ∨ (x = b ∧ y = o ∧ z = a) ∨ (x = o ∧ y = a ∧ z = b) ∨ (x = a ∧ y = o ∧ z = b) := by
        unfold Is at his; grind
      rcases this with ⟨rfl, rfl, rfl⟩ | ⟨rfl, rfl, rfl⟩ | ⟨rfl, rfl, rfl⟩ | ⟨rfl, rfl, rfl⟩
      · exact s2
      · rw [area_swap (pos y), area_swap (pos y), neg_mul_neg]; exact s2
      · exact s1
      · rw [area_swap (pos y), area_swap (pos y), neg_mul_neg]; exact s1
    · exact h.gone1 k1 k3 h1 h2 h3
  · intro x y w k1 k2 hw
    rcases (hT' x y v).1 k1 with ⟨k1, k3, -⟩ | k1 | k1
    · have nx : x ≠ v := hT.ne3 k1
      have ny : y ≠ v := hT.ne2 k1
      obtain ⟨k2, -⟩ := hkept k2 nx ny hw
      rcases h.pend k1 k2 hw with k4 | k4
      · refine .inl (hE x y k4 ?_)
        rintro (⟨rfl, rfl⟩ | ⟨rfl, rfl⟩)
        · exact k3 (by unfold Is; grind)
        · exact k3 (by unfold Is; grind)
      · exact .inr k4
    · have : (x = o ∧ y = a) ∨ (x = a ∧ y = o) := by unfold Is at k1; grind
      rcases this with ⟨rfl, rfl⟩ | ⟨rfl, rfl⟩
      · exact .inl hEa.1
      · exact .inl hEa.2
    · have : (x = o ∧ y = b) ∨ (x = b ∧ y = o) := by unfold Is at k1; grind
      rcases this with ⟨rfl, rfl⟩ | ⟨rfl, rfl⟩
      · exact .inl hEb.1
      · exact .inl hEb.2

end Mdso.Tri
