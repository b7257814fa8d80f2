import Verif.Spec.Resave
import Verif.Props.Snapshot

/-!
# Saving what was loaded (C181)
-/

set_option autoImplicit false

namespace Mdso.Snap

open Mdso.SnapSpec

/-! ## The files of a restored keyframe -/

theorem putImmature_same (ps : Nat) {p q : Immature} (h : SameImmature p q) :
    putImmature ps q = putImmature ps p := by
  obtain ⟨h1, h2, h3, h4, h5, h6, h7, h8, h9, h10, h11, h12⟩ := h
  unfold putImmature
  rw [h1, h2, h3, h4, h5, h6, h7, h8, h9, h10, h11, h12]

theorem putOptimized_same {p q : Optimized} (h : SamePlace p q) :
    putOptimized q = putOptimized p := by
  obtain ⟨h1, h2, h3, h4⟩ := h
  unfold putOptimized
  rw [h1, h2, h3, h4]

theorem mapM_same {α β : Type} {R : α → α → Prop} {f : α → Except Fault β}
    (hf : ∀ a b, R a b → f b = f a) {l l' : List α} (h : List.Forall₂ R l l') :
    l'.mapM f = l.mapM f := by
  induction h with
  | nil => rfl
  | cons hab _ ih => rw [List.mapM_cons, List.mapM_cons, hf _ _ hab, ih]

theorem flatMap_same {α β : Type} {R : α → α → Prop} {f : α → List β}
    (hf : ∀ a b, R a b → f b = f a) {l l' : List α} (h : List.Forall₂ R l l') :
    l'.flatMap f = l.flatMap f := by
  induction h with
  | nil => rfl
  | cons hab _ ih => rw [List.flatMap_cons, List.flatMap_cons, hf _ _ hab, ih]

/-- **C181**, one keyframe: a restored keyframe writes the files the saved one wrote, and into any
directory. -/
theorem C181_keyframe (ps : Nat) {kf k : KeyFrame} (h : Restored kf k) (d : Dir) :
    keyFrameFiles ps k = keyFrameFiles ps kf ∧ storeKeyFrame ps d k = storeKeyFrame ps d kf := by
  obtain ⟨h1, h2, h3, h4, h5, h6⟩ := h
  have e : keyFrameFiles ps k = keyFrameFiles ps kf := by
    unfold keyFrameFiles
    rw [mapM_same (f := putImmature ps) (fun _ _ h => putImmature_same ps h) h5,
      flatMap_same (f := putOptimized) (fun _ _ h => putOptimized_same h) h6,
      h1, h2, h3, h4, h5.length_eq, h6.length_eq]
  refine ⟨e, ?_⟩
  unfold storeKeyFrame
  rw [e, h1, h4]

/-- A keyframe with an optimized point whose state is lost still writes the same files. -/
example (d : Dir) : storeKeyFrame 2 d (reload (exKeyFrame 5)) = storeKeyFrame 2 d (exKeyFrame 5) ∧
    reload (exKeyFrame 5) ≠ exKeyFrame 5 := by
  refine ⟨(C181_keyframe 2 (reload_restored _) d).2, fun h => ?_⟩
  have := congrArg KeyFrame.optimizedPoints h
  simp [reload, reloadOptimized, exKeyFrame, exOptimized] at this

/-! ## The same directory -/

theorem setKf_same (n : Int) (f : KfDir) : ∀ l : List (Int × KfDir), (l.map Prod.fst).Nodup →
    (n, f) ∈ l → setKf n f l = l
  | [], _, h => by simp at h
  | (m, g) :: l, hn, h => by
    simp only [List.map_cons, List.nodup_cons] at hn
    unfold setKf
    by_cases e : m = n
    · subst e
      rw [if_pos rfl]
      rcases List.mem_cons.1 h with h | h
      · rw [(Prod.mk.inj h).2]
      · exact absurd (List.mem_map.2 ⟨_, h, rfl⟩) hn.1
    · rw [if_neg e]
      rcases List.mem_cons.1 h with h | h
      · exact absurd (Prod.mk.inj h).1.symm e
      · rw [setKf_same n f l hn.2 h]

theorem storeTracked_same : ∀ (l : List PreKeyFrame) (d : Int → Option (List Tok)),
    (∀ g ∈ l, d g.globalFrameNum = some (putPreKeyFrame g)) → storeTracked d l = d
  | [], _, _ => rfl
  | g :: l, d, h => by
    have e : (fun n => if n = g.globalFrameNum then some (putPreKeyFrame g) else d n) = d := by
      funext n
      by_cases hn : n = g.globalFrameNum
      · rw [if_pos hn, hn, h g (by simp)]
      · rw [if_neg hn]
    unfold storeTracked
    rw [e]
    exact storeTracked_same l d (fun x hx => h x (by simp [hx]))

theorem store_same {ps : Nat} {d : Dir} {saved : List KeyFrame} (H : Holds ps d saved)
    {kf k : KeyFrame} (hl : LastVersion saved kf) (hr : Restored kf k) :
    storeKeyFrame ps d k = .ok d := by
  rw [(C181_keyframe ps hr d).2]
  obtain ⟨f, hf, ef⟩ := H.complete kf hl
  unfold storeKeyFrame
  rw [ef]
  change Except.ok (Dir.mk (setKf (number kf) f d.kf) (storeTracked d.pkf kf.trackedFrames)) = _
  rw [setKf_same _ _ _ H.nodup hf, storeTracked_same _ _ (H.tracked kf hl)]

theorem save_same {ps : Nat} {d : Dir} {saved : List KeyFrame} (H : Holds ps d saved) :
    ∀ m : List KeyFrame, (∀ k ∈ m, ∃ kf, LastVersion saved kf ∧ Restored kf k) →
      save ps d m = .ok d
  | [], _ => rfl
  | k :: m, h => by
    obtain ⟨kf, hl, hr⟩ := h k (by simp)
    unfold save
    rw [List.foldlM_cons, store_same H hl hr]
    exact save_same H m (fun x hx => h x (by simp [hx]))

/-- **C181**, the same directory: after any history of saves, saving what was loaded, whole or in
part, once or more, in any order, changes no file. -/
theorem C181_same {ps : Nat} (h1 : 1 ≤ ps) (saves : List (List KeyFrame))
    (hr : ∀ kf ∈ saves.flatten, Regular ps kf) (ho : OneBase saves.flatten) :
    ∃ d, saveAll ps saves = .ok d ∧ ∀ order : List (Int × KfDir), order.Perm d.kf →
      ∃ m, load ps d order = .ok m ∧ ∀ part : List KeyFrame, (∀ k ∈ part, k ∈ m) →
        ∃ d', save ps d part = .ok d' ∧ SameFiles d d' := by
  obtain ⟨d, e, H⟩ := save_holds h1 saves.flatten hr ho
  refine ⟨d, by rw [saveAll_eq, e], fun order hp => ?_⟩
  obtain ⟨m, em, -, hm⟩ := load_holds h1 hr H hp
  refine ⟨m, em, fun part hpart => ⟨d, save_same H part ?_, fun _ _ => Iff.rfl, fun _ => rfl⟩⟩
  intro k hk
  obtain ⟨kf, hl, rfl⟩ := (hm k).1 (hpart k hk)
  exact ⟨kf, hl, reload_restored kf⟩

/-! ## A fresh directory -/

theorem reloadImmature_twice (p : Immature) : reloadImmature (reloadImmature p) = reloadImmature p :=
  rfl

theorem reload_twice (kf : KeyFrame) : reload (reload kf) = reload kf := by
  unfold reload
  simp only [List.map_map]
  rfl

theorem reload_regular {ps : Nat} {kf : KeyFrame} (h : Regular ps kf) : Regular ps (reload kf) := by
  refine ⟨?_, h.2⟩
  intro p hp
  obtain ⟨q, hq, rfl⟩ := List.mem_map.1 hp
  exact h.1 q hq

theorem sorted_ext {m m' : List KeyFrame} (h : m.Pairwise (fun a b => number a < number b))
    (h' : m'.Pairwise (fun a b => number a < number b)) (e : ∀ k, k ∈ m ↔ k ∈ m') : m = m' := by
  have n : ∀ {l : List KeyFrame}, l.Pairwise (fun a b => number a < number b) → l.Nodup := by
    intro l hl
    refine hl.imp ?_
    intro a b hab hE
    rw [hE] at hab
    exact lt_irrefl _ hab
  have p : m.Perm m' := (List.perm_ext_iff_of_nodup (n h) (n h')).2 e
  refine p.eq_of_pairwise ?_ h h'
  intro a b _ _ h1 h2
  exact absurd (lt_trans h1 h2) (lt_irrefl _)

theorem lastVersion_of_sorted {m : List KeyFrame}
    (h : m.Pairwise (fun a b => number a < number b)) {k : KeyFrame} (hk : k ∈ m) :
    LastVersion m k := by
  obtain ⟨b, a, rfl⟩ := List.append_of_mem hk
  refine ⟨b, a, rfl, fun x hx => ?_⟩
  have := (List.pairwise_append.1 h).2.1
  exact ne_of_gt ((List.pairwise_cons.1 this).1 x hx)

/-- **C181**, another directory: what was loaded is saved into an empty directory without a fault, and
loading that gives exactly what was loaded, whatever the orders in which both directories are
listed. -/
theorem C181_copy {ps : Nat} (h1 : 1 ≤ ps) (saves : List (List KeyFrame))
    (hr : ∀ kf ∈ saves.flatten, Regular ps kf) (ho : OneBase saves.flatten) :
    ∃ d, saveAll ps saves = .ok d ∧ ∀ order : List (Int × KfDir), order.Perm d.kf →
      ∃ m, load ps d order = .ok m ∧ ∃ d', save ps .empty m = .ok d' ∧
        ∀ order' : List (Int × KfDir), order'.Perm d'.kf → load ps d' order' = .ok m := by
  obtain ⟨d, e, H⟩ := save_holds h1 saves.flatten hr ho
  refine ⟨d, by rw [saveAll_eq, e], fun order hp => ?_⟩
  obtain ⟨m, em, hs, hm⟩ := load_holds h1 hr H hp
  have hr' : ∀ k ∈ m, Regular ps k := by
    intro k hk
    obtain ⟨kf, hl, rfl⟩ := (hm k).1 hk
    exact reload_regular (hr kf (lastVersion_mem hl))
  have ho' : OneBase m := by
    intro a ha b hb f hf g hg hfg
    obtain ⟨a0, hla, rfl⟩ := (hm a).1 ha
    obtain ⟨b0, hlb, rfl⟩ := (hm b).1 hb
    exact ho a0 (lastVersion_mem hla) b0 (lastVersion_mem hlb) f hf g hg hfg
  obtain ⟨d', e', H'⟩ := save_holds h1 m hr' ho'
  refine ⟨m, em, d', e', fun order' hp' => ?_⟩
  obtain ⟨m', em', hs', hm'⟩ := load_holds h1 hr' H' hp'
  rw [em']
  congr 1
  refine sorted_ext hs' hs (fun k => ?_)
  rw [hm' k]
  constructor
  · rintro ⟨k0, hl0, rfl⟩
    have := lastVersion_mem hl0
    obtain ⟨kf, hl, rfl⟩ := (hm k0).1 this
    rw [reload_twice]
    exact this
  · intro hk
    obtain ⟨kf, hl, rfl⟩ := (hm k).1 hk
    exact ⟨_, lastVersion_of_sorted hs hk, (reload_twice kf).symm⟩

/-- **C181**, listing: what is loaded does not depend on the order in which the directory is
listed. -/
theorem C181_order {ps : Nat} (h1 : 1 ≤ ps) (saves : List (List KeyFrame))
    (hr : ∀ kf ∈ saves.flatten, Regular ps kf) (ho : OneBase saves.flatten) :
    ∃ d m, saveAll ps saves = .ok d ∧
      ∀ order : List (Int × KfDir), order.Perm d.kf → load ps d order = .ok m := by
  obtain ⟨d, e, H⟩ := save_holds h1 saves.flatten hr ho
  obtain ⟨m, em, hs, hm⟩ := load_holds h1 hr H (List.Perm.refl d.kf)
  refine ⟨d, m, by rw [saveAll_eq, e], fun order hp => ?_⟩
  obtain ⟨m', em', hs', hm'⟩ := load_holds h1 hr H hp
  rw [em']
  congr 1
  exact sorted_ext hs' hs (fun k => (hm' k).trans (hm k).symm)

/-- Two saves of windows that overlap: three keyframes with points and tracked frames. -/
example : ∃ d, saveAll 2 [[exKeyFrame 1, exKeyFrame 4], [exKeyFrame 4, exKeyFrame 7]] = .ok d ∧
    ∀ order : List (Int × KfDir), order.Perm d.kf →
      ∃ m, load 2 d order = .ok m ∧ ∃ d', save 2 .empty m = .ok d' ∧
        ∀ order' : List (Int × KfDir), order'.Perm d'.kf → load 2 d' order' = .ok m := by
  refine C181_copy (by norm_num) _ ?_ (exOneBase [1, 4, 4, 7])
  intro kf hk
  obtain ⟨n, -, rfl⟩ := List.mem_map.1 (show kf ∈ [1, 4, 4, 7].map exKeyFrame from hk)
  exact exKeyFrame_regular n

/-- The same two saves: what was loaded can be saved back. -/
example : ∃ d, saveAll 2 [[exKeyFrame 1, exKeyFrame 4], [exKeyFrame 4, exKeyFrame 7]] = .ok d ∧
    ∀ order : List (Int × KfDir), order.Perm d.kf →
      ∃ m, load 2 d order = .ok m ∧ ∀ part : List KeyFrame, (∀ k ∈ part, k ∈ m) →
        ∃ d', save 2 d part = .ok d' ∧ SameFiles d d' := by
  refine C181_same (by norm_num) _ ?_ (exOneBase [1, 4, 4, 7])
  intro kf hk
  obtain ⟨n, -, rfl⟩ := List.mem_map.1 (show kf ∈ [1, 4, 4, 7].map exKeyFrame from hk)
  exact exKeyFrame_regular n

end Mdso.Snap
