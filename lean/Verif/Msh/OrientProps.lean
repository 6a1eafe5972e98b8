import Verif.Msh.MergeProps
import Mathlib.Tactic.IntervalCases

/-!
# C125: a common orientation of the faces
-/

namespace Simox.Msh

open Matrix Jac Rot

variable {C : Type}

/-! ## Specification -/

/-- The place of a corner. -/
def Mesh.place (m : Mesh C) (f : Face) (c : Fin 3) : Option V3 := m.vertices[f.id c]?

/-- The three corners are at different places. -/
def Proper (m : Mesh C) (f : Face) : Prop := ∀ c d, m.place f c = m.place f d → c = d

open Classical in
/-- The faces have exactly two corners in common, that is one side. -/
def Touch (m : Mesh C) (f g : Face) : Prop := (Finset.univ.filter fun ab : Fin 3 × Fin 3 => m.place f ab.1 = m.place g ab.2).card = 2

/-- Both faces run through a side in the same direction, so that their normals point to different sides of the surface. -/
def SameWay (m : Mesh C) (f g : Face) : Prop := ∃ c d, m.place f c = m.place g d ∧ m.place f (c + 1) = m.place g (d + 1)

/-- No two faces with a common side run through it in the same direction. -/
def Consistent (m : Mesh C) : Prop := ∀ (i j : ℕ) (f g : Face), i ≠ j → m.faces[i]? = some f → m.faces[j]? = some g → Touch m f g → ¬ SameWay m f g

/-! ## The test on a table of common corners -/

/-- `mustFlip` on the table of common corners. -/
def flipM (inverted : Bool) (M : Fin 3 → Fin 3 → Bool) : Bool :=
  match [((0 : Fin 3), (0 : Fin 3)), (0, 1), (0, 2), (1, 0), (1, 1), (1, 2), (2, 0), (2, 1), (2, 2)].filter fun ab => M ab.1 ab.2 with
  | [(a1, b1), (a2, b2)] =>
      let bAok := (a1 == 0 && a2 == 1) || (a1 == 1 && a2 == 2) || (a1 == 2 && a2 == 0)
      let bBok := (b1 == 0 && b2 == 2) || (b1 == 2 && b2 == 1) || (b1 == 1 && b2 == 0)
      let bAok := if inverted then !bAok else bAok
      (bAok && !bBok) || (!bAok && bBok)
  | _ => false

theorem mustFlip_eq (eq : ℕ → ℕ → Bool) (inverted : Bool) (f g : Face) : mustFlip eq inverted f g = flipM inverted fun a b => eq (f.id a) (g.id b) := by
  unfold mustFlip flipM commonCorners
  generalize List.filter _ _ = l
  rcases l with _ | ⟨⟨a, b⟩, _ | ⟨⟨c, d⟩, _ | ⟨e, l⟩⟩⟩ <;> rfl

/-- Every corner of one face is at the place of at most one corner of the other. -/
def Matching (M : Fin 3 → Fin 3 → Bool) : Prop := (∀ a b b', M a b = true → M a b' = true → b = b') ∧ ∀ a a' b, M a b = true → M a' b = true → a = a'

instance (M : Fin 3 → Fin 3 → Bool) : Decidable (Matching M) := by unfold Matching; infer_instance

/-- The number of common corners. -/
def countM (M : Fin 3 → Fin 3 → Bool) : ℕ := (Finset.univ.filter fun ab : Fin 3 × Fin 3 => M ab.1 ab.2 = true).card

/-- The number of a corner in the flipped face. -/
def turn (c : Fin 3) : Fin 3 := 2 - c

theorem flipM_table : ∀ M : Fin 3 → Fin 3 → Bool, Matching M →
    (flipM false M = true ↔ countM M = 2 ∧ ∃ a b, M a b = true ∧ M (a + 1) (b + 1) = true) ∧
    (flipM false (fun a b => M a (turn b)) = (decide (countM M = 2) && !flipM false M)) ∧
    (flipM false (fun a b => M (turn a) b) = (decide (countM M = 2) && !flipM false M)) ∧
    (flipM true M = (decide (countM M = 2) && !flipM false M)) := by
  decide +kernel

/-! ## Faces -/

theorem flip_id (f : Face) (c : Fin 3) : f.flipOrientation.id c = f.id (turn c) := by fin_cases c <;> rfl

theorem flip_flip (f : Face) : f.flipOrientation.flipOrientation = f := by
  obtain ⟨i, j, k, n⟩ := f
  simp only [Face.flipOrientation]
  congr 1
  · funext x; fin_cases x <;> rfl
  · rcases n with _ | n
    · rfl
    · simp

/-- The table of the common corners of two faces. -/
noncomputable def table (m : Mesh C) (f g : Face) : Fin 3 → Fin 3 → Bool := fun a b => samePlace m.vertices (f.id a) (g.id b)

theorem table_iff {m : Mesh C} {f g : Face} {a b : Fin 3} : table m f g a b = true ↔ m.place f a = m.place g b := by
  simp [table, samePlace, Mesh.place]

theorem table_matching {m : Mesh C} {f g : Face} (hf : Proper m f) (hg : Proper m g) : Matching (table m f g) := by
  refine ⟨fun a b b' h h' => ?_, fun a a' b h h' => ?_⟩
  · exact hg _ _ ((table_iff.1 h).symm.trans (table_iff.1 h'))
  · exact hf _ _ ((table_iff.1 h).trans (table_iff.1 h').symm)

theorem touch_iff {m : Mesh C} {f g : Face} : Touch m f g ↔ countM (table m f g) = 2 := by
  unfold Touch countM
  have : (Finset.univ.filter fun ab : Fin 3 × Fin 3 => table m f g ab.1 ab.2 = true) = Finset.univ.filter fun ab : Fin 3 × Fin 3 => m.place f ab.1 = m.place g ab.2 := by
    ext ab
    simp [table_iff]
  rw [this]

theorem mustFlip_iff {m : Mesh C} {f g : Face} (hf : Proper m f) (hg : Proper m g) :
    mustFlip (samePlace m.vertices) false f g = true ↔ Touch m f g ∧ SameWay m f g := by
  rw [mustFlip_eq, touch_iff]
  have := (flipM_table _ (table_matching hf hg)).1
  rw [show (flipM false fun a b => samePlace m.vertices (f.id a) (g.id b)) = flipM false (table m f g) from rfl, this]
  simp only [table_iff]
  rfl

theorem table_flip_right (m : Mesh C) (f g : Face) : table m f g.flipOrientation = fun a b => table m f g a (turn b) := by
  funext a b
  unfold table
  rw [flip_id]

theorem table_flip_left (m : Mesh C) (f g : Face) : table m f.flipOrientation g = fun a b => table m f g (turn a) b := by
  funext a b
  unfold table
  rw [flip_id]

theorem turn_turn : ∀ c : Fin 3, turn (turn c) = c := by decide

theorem proper_flip {m : Mesh C} {f : Face} (h : Proper m f) : Proper m f.flipOrientation := by
  intro c d hcd
  unfold Mesh.place at hcd
  rw [flip_id, flip_id] at hcd
  have := h _ _ hcd
  rw [← turn_turn c, ← turn_turn d, this]

theorem mustFlip_right {m : Mesh C} {f g : Face} (hf : Proper m f) (hg : Proper m g) :
    mustFlip (samePlace m.vertices) false f g.flipOrientation = (decide (countM (table m f g) = 2) && !mustFlip (samePlace m.vertices) false f g) := by
  rw [mustFlip_eq, mustFlip_eq]
  have := (flipM_table _ (table_matching hf hg)).2.1
  rw [← table_flip_right] at this
  exact this

theorem mustFlip_left {m : Mesh C} {f g : Face} (hf : Proper m f) (hg : Proper m g) :
    mustFlip (samePlace m.vertices) false f.flipOrientation g = (decide (countM (table m f g) = 2) && !mustFlip (samePlace m.vertices) false f g) := by
  rw [mustFlip_eq, mustFlip_eq]
  have := (flipM_table _ (table_matching hf hg)).2.2.1
  rw [← table_flip_left] at this
  exact this

theorem mustFlip_inverted {m : Mesh C} {f g : Face} (hf : Proper m f) (hg : Proper m g) :
    mustFlip (samePlace m.vertices) true f g = (decide (countM (table m f g) = 2) && !mustFlip (samePlace m.vertices) false f g) := by
  rw [mustFlip_eq, mustFlip_eq]
  exact (flipM_table _ (table_matching hf hg)).2.2.2

/-- A face that is flipped or not. -/
noncomputable def oriented (f : Face) (b : Bool) : Face := if b then f.flipOrientation else f

theorem proper_oriented {m : Mesh C} {f : Face} (h : Proper m f) (b : Bool) : Proper m (oriented f b) := by
  rcases b with _ | _
  · exact h
  · exact proper_flip h

theorem touch_flip_right {m : Mesh C} {f g : Face} : Touch m f g.flipOrientation ↔ Touch m f g := by
  unfold Touch
  have : (Finset.univ.filter fun ab : Fin 3 × Fin 3 => m.place f ab.1 = m.place g.flipOrientation ab.2).card =
      (Finset.univ.filter fun ab : Fin 3 × Fin 3 => m.place f ab.1 = m.place g ab.2).card := by
    refine Finset.card_bij (fun ab _ => (ab.1, turn ab.2)) ?_ ?_ ?_
    · rintro ⟨a, b⟩ h
      have h' := (Finset.mem_filter.1 h).2
      refine Finset.mem_filter.2 ⟨Finset.mem_univ _, ?_⟩
      simp only [Mesh.place, flip_id] at h' ⊢
      exact h'
    · rintro ⟨a, b⟩ - ⟨a', b'⟩ - h
      simp only [Prod.mk.injEq] at h
      rw [Prod.mk.injEq]
      exact ⟨h.1, by rw [← turn_turn b, ← turn_turn b', h.2]⟩
    · rintro ⟨a, b⟩ h
      refine ⟨(a, turn b), ?_, by rw [turn_turn]⟩
      have h' := (Finset.mem_filter.1 h).2
      refine Finset.mem_filter.2 ⟨Finset.mem_univ _, ?_⟩
      simp only [Mesh.place, flip_id, turn_turn] at h' ⊢
      exact h'
  rw [this]

theorem touch_symm {m : Mesh C} {f g : Face} (h : Touch m f g) : Touch m g f := by
  unfold Touch at h ⊢
  rw [← h]
  refine Finset.card_bij (fun ab _ => (ab.2, ab.1)) ?_ ?_ ?_
  · rintro ⟨a, b⟩ h
    simp only [Finset.mem_filter, Finset.mem_univ, true_and] at h ⊢
    exact h.symm
  · rintro ⟨a, b⟩ - ⟨a', b'⟩ - h
    simp only [Prod.mk.injEq] at h
    rw [Prod.mk.injEq]
    exact ⟨h.2, h.1⟩
  · rintro ⟨a, b⟩ h
    refine ⟨(b, a), ?_, rfl⟩
    simp only [Finset.mem_filter, Finset.mem_univ, true_and] at h ⊢
    exact h.symm

theorem touch_flip_left {m : Mesh C} {f g : Face} : Touch m f.flipOrientation g ↔ Touch m f g :=
  ⟨fun h => touch_symm (touch_flip_right.1 (touch_symm h)), fun h => touch_symm (touch_flip_right.2 (touch_symm h))⟩

theorem touch_oriented {m : Mesh C} {f g : Face} (a b : Bool) : Touch m (oriented f a) (oriented g b) ↔ Touch m f g := by
  rcases a with _ | _ <;> rcases b with _ | _ <;> simp [oriented, touch_flip_left, touch_flip_right]

/-- The test for faces of which the unflipped ones agree. -/
theorem mustFlip_oriented {m : Mesh C} {f g : Face} (hf : Proper m f) (hg : Proper m g) (hag : Touch m f g → ¬ SameWay m f g) (a b : Bool) :
    mustFlip (samePlace m.vertices) false (oriented f a) (oriented g b) = true ↔ Touch m f g ∧ a ≠ b := by
  have h0 : mustFlip (samePlace m.vertices) false f g = false := by
    rw [Bool.eq_false_iff]
    intro h
    obtain ⟨h1, h2⟩ := (mustFlip_iff hf hg).1 h
    exact hag h1 h2
  have hr := mustFlip_right hf hg
  have hl := mustFlip_left hf hg
  rw [h0] at hr hl
  have hlr := mustFlip_left hf (proper_flip hg)
  rw [hr] at hlr
  have e : countM (table m f g.flipOrientation) = 2 ↔ countM (table m f g) = 2 := by rw [← touch_iff, ← touch_iff, touch_flip_right]
  rcases a with _ | _ <;> rcases b with _ | _
  · simp [oriented, h0]
  · simp [oriented, hr, touch_iff]
  · simp [oriented, hl, touch_iff]
  · simp [oriented, hlr, e]

/-! ## What always holds -/

/-- Every face is kept or flipped. -/
def KeptOrFlipped (f f' : Face) : Prop := f' = f ∨ f' = f.flipOrientation

theorem orientStep_kept (eq : ℕ → ℕ → Bool) (inverted : Bool) (fs : List Face) (s : List Face × ℕ) (h : List.Forall₂ KeptOrFlipped fs s.1) (ij : ℕ × ℕ) :
    List.Forall₂ KeptOrFlipped fs (orientStep eq inverted s ij).1 ∧ s.2 ≤ (orientStep eq inverted s ij).2 ∧
      ((orientStep eq inverted s ij).2 = s.2 → orientStep eq inverted s ij = s) := by
  unfold orientStep
  by_cases hij : ij.1 = ij.2
  · rw [if_pos hij]; exact ⟨h, le_refl _, fun _ => rfl⟩
  · rw [if_neg hij]
    split
    · rename_i f1 f2 h1 h2
      split
      · refine ⟨?_, by simp, by simp⟩
        dsimp only
        have key : ∀ (l l' : List Face) (j : ℕ), List.Forall₂ KeptOrFlipped l l' → l'[j]? = some f2 → List.Forall₂ KeptOrFlipped l (l'.set j f2.flipOrientation) := by
          intro l l' j hl
          induction hl generalizing j with
          | nil => intro h; simp at h
          | cons hr hl ih =>
            intro hj
            rcases j with _ | j
            · simp only [List.getElem?_cons_zero, Option.some.injEq] at hj
              subst hj
              refine .cons ?_ hl
              rcases hr with rfl | rfl
              · exact .inr rfl
              · exact .inl (flip_flip _)
            · exact .cons hr (ih j (by simpa using hj))
        exact key _ _ _ h h2
      · exact ⟨h, le_refl _, fun _ => rfl⟩
    · exact ⟨h, le_refl _, fun _ => rfl⟩

theorem orient_kept (eq : ℕ → ℕ → Bool) (inverted : Bool) (fs : List Face) : ∀ (l : List (ℕ × ℕ)) (s : List Face × ℕ), List.Forall₂ KeptOrFlipped fs s.1 →
    List.Forall₂ KeptOrFlipped fs (l.foldl (orientStep eq inverted) s).1 ∧ s.2 ≤ (l.foldl (orientStep eq inverted) s).2 ∧
      ((l.foldl (orientStep eq inverted) s).2 = s.2 → l.foldl (orientStep eq inverted) s = s)
  | [], s, h => ⟨h, le_refl _, fun _ => rfl⟩
  | ij :: l, s, h => by
      obtain ⟨a1, a2, a3⟩ := orientStep_kept eq inverted fs s h ij
      obtain ⟨b1, b2, b3⟩ := orient_kept eq inverted fs l _ a1
      refine ⟨b1, a2.trans b2, fun e => ?_⟩
      rw [List.foldl_cons] at e ⊢
      have := a3 (by omega)
      rw [this] at b3 e ⊢
      exact b3 e

theorem kept_refl : ∀ fs : List Face, List.Forall₂ KeptOrFlipped fs fs
  | [] => .nil
  | _ :: fs => .cons (.inl rfl) (kept_refl fs)

theorem check_eq {m : Mesh C} (hv : m.Valid) (inverted : Bool) :
    m.checkAndCorrectNormals inverted = .ok ({ m with faces := (orientLoop (samePlace m.vertices) inverted m.faces).1 }, (orientLoop (samePlace m.vertices) inverted m.faces).2) := by
  unfold Mesh.checkAndCorrectNormals
  rw [if_neg]
  rintro ⟨-, h⟩
  exact h hv

/-- For every mesh with valid faces: each face is kept or flipped, nothing else changes, and if 0 is returned nothing has been
flipped. -/
theorem C125_kept (m : Mesh C) (hv : m.Valid) (inverted : Bool) : ∃ (fs : List Face) (n : ℕ), m.checkAndCorrectNormals inverted = .ok ({ m with faces := fs }, n) ∧
    List.Forall₂ KeptOrFlipped m.faces fs ∧ (n = 0 → fs = m.faces) := by
  obtain ⟨h1, -, h3⟩ := orient_kept (samePlace m.vertices) inverted m.faces _ (m.faces, 0) (kept_refl _)
  refine ⟨_, _, check_eq hv inverted, h1, fun h => ?_⟩
  have := h3 h
  exact congrArg Prod.fst this

/-- If the faces agree nothing is changed and 0 is returned. -/
theorem C125_consistent (m : Mesh C) (hv : m.Valid) (hp : ∀ f ∈ m.faces, Proper m f) (h : Consistent m) : m.checkAndCorrectNormals false = .ok (m, 0) := by
  rw [check_eq hv]
  have key : ∀ l : List (ℕ × ℕ), l.foldl (orientStep (samePlace m.vertices) false) (m.faces, 0) = (m.faces, 0) := by
    intro l
    induction l with
    | nil => rfl
    | cons ij l ih =>
      have : orientStep (samePlace m.vertices) false (m.faces, 0) ij = (m.faces, 0) := by
        unfold orientStep
        by_cases hij : ij.1 = ij.2
        · rw [if_pos hij]
        · rw [if_neg hij]
          split
          · rename_i f1 f2 h1 h2
            rw [if_neg]
            rw [mustFlip_iff (hp _ (List.mem_of_getElem? h1)) (hp _ (List.mem_of_getElem? h2))]
            rintro ⟨a, b⟩
            exact h _ _ _ _ hij h1 h2 a b
          · rfl
      rw [List.foldl_cons, this, ih]
  unfold orientLoop
  rw [key]

/-! ## Orientable meshes -/

/-- The state of the loops: face `j` is face `j` of the oriented mesh `F`, flipped if `s j`. -/
def State (F : List Face) (fs : List Face) (s : ℕ → Bool) : Prop := fs.length = F.length ∧ ∀ (j : ℕ) (g : Face), F[j]? = some g → fs[j]? = some (oriented g (s j))

theorem oriented_flip (g : Face) (b : Bool) : (oriented g b).flipOrientation = oriented g (!b) := by
  rcases b with _ | _
  · rfl
  · exact flip_flip g

/-- Comparing faces `i` and `j` gives face `j` the orientation of face `i` if they touch. -/
theorem step_state {m : Mesh C} {F : List Face} (hp : ∀ f ∈ F, Proper m f)
    (hc : ∀ (i j : ℕ) (f g : Face), i ≠ j → F[i]? = some f → F[j]? = some g → Touch m f g → ¬ SameWay m f g) {fs : List Face} {n : ℕ} {s : ℕ → Bool}
    (h : State F fs s) (i j : ℕ) : ∃ s', State F (orientStep (samePlace m.vertices) false (fs, n) (i, j)).1 s' ∧
      (∀ k, k ≠ j → s' k = s k) ∧ (s' j = s j ∨ (i ≠ j ∧ s' j = s i)) ∧
      (∀ f g : Face, i ≠ j → F[i]? = some f → F[j]? = some g → Touch m f g → s' j = s i) := by
  obtain ⟨hl, hs⟩ := h
  unfold orientStep
  by_cases hij : i = j
  · rw [if_pos hij]
    exact ⟨s, ⟨hl, hs⟩, fun _ _ => rfl, .inl rfl, fun f g h => absurd hij h⟩
  · rw [if_neg hij]
    dsimp only
    rcases hi : F[i]? with _ | f
    · have hi' : fs[i]? = none := by rw [List.getElem?_eq_none_iff] at hi ⊢; omega
      rw [hi']
      exact ⟨s, ⟨hl, hs⟩, fun _ _ => rfl, .inl rfl, by simp⟩
    · rcases hj : F[j]? with _ | g
      · have hj' : fs[j]? = none := by rw [List.getElem?_eq_none_iff] at hj ⊢; omega
        rw [hj', hs i f hi]
        exact ⟨s, ⟨hl, hs⟩, fun _ _ => rfl, .inl rfl, by simp⟩
      · rw [hs i f hi, hs j g hj]
        dsimp only
        have hm := mustFlip_oriented (hp f (List.mem_of_getElem? hi)) (hp g (List.mem_of_getElem? hj)) (hc i j f g hij hi hj) (s i) (s j)
        by_cases ht : mustFlip (samePlace m.vertices) false (oriented f (s i)) (oriented g (s j)) = true
        · rw [if_pos ht]
          obtain ⟨h1, h2⟩ := hm.1 ht
          refine ⟨Function.update s j (s i), ⟨by simpa using hl, ?_⟩, fun k hk => Function.update_of_ne hk _ _, .inr ⟨hij, Function.update_self ..⟩, ?_⟩
          · intro k g' hk
            by_cases hkj : k = j
            · subst hkj
              have hlt : k < fs.length := by have := (List.getElem?_eq_some_iff.1 hk).1; omega
              rw [hj] at hk
              cases hk
              dsimp only
              rw [List.getElem?_set, if_pos rfl, if_pos hlt, Function.update_self, oriented_flip]
              congr 2
              revert h2
              rcases s i with _ | _ <;> rcases s k with _ | _ <;> simp
            · dsimp only
              rw [List.getElem?_set, if_neg (fun h => hkj h.symm), Function.update_of_ne hkj]
              exact hs k g' hk
          · intro f' g' _ e1 e2 _
            exact Function.update_self ..
        · rw [if_neg ht]
          refine ⟨s, ⟨hl, hs⟩, fun _ _ => rfl, .inl rfl, ?_⟩
          intro f' g' _ e1 e2 h1
          cases e1
          cases e2
          by_contra hne
          exact ht (hm.2 ⟨h1, fun h => hne h.symm⟩)

/-- One row: face `i` against the faces in `js`. -/
theorem row_state {m : Mesh C} {F : List Face} (hp : ∀ f ∈ F, Proper m f)
    (hc : ∀ (i j : ℕ) (f g : Face), i ≠ j → F[i]? = some f → F[j]? = some g → Touch m f g → ¬ SameWay m f g) (i : ℕ) (c : Bool) :
    ∀ (js : List ℕ) (fs : List Face × ℕ) (s : ℕ → Bool), State F fs.1 s → s i = c →
      ∃ s', State F ((js.map fun j => (i, j)).foldl (orientStep (samePlace m.vertices) false) fs).1 s' ∧ (∀ k, s k = c → s' k = c) ∧
        ∀ j ∈ js, ∀ f g : Face, i ≠ j → F[i]? = some f → F[j]? = some g → Touch m f g → s' j = c
  | [], fs, s, h, hi => ⟨s, h, fun _ h => h, by simp⟩
  | j :: js, fs, s, h, hi => by
      obtain ⟨s1, a1, a2, a3, a4⟩ := step_state (n := fs.2) hp hc h i j
      have hkeep : ∀ k, s k = c → s1 k = c := by
        intro k hk
        by_cases hkj : k = j
        · subst hkj
          rcases a3 with h' | ⟨-, h'⟩
          · rw [h']; exact hk
          · rw [h']; exact hi
        · rw [a2 k hkj]; exact hk
      obtain ⟨s2, b1, b2, b3⟩ := row_state hp hc i c js _ s1 a1 (hkeep i hi)
      refine ⟨s2, b1, fun k hk => b2 k (hkeep k hk), ?_⟩
      intro j' hj' f g hij hf hg ht
      rcases List.mem_cons.1 hj' with rfl | hj'
      · exact b2 _ (by rw [a4 f g hij hf hg ht]; exact hi)
      · exact b3 j' hj' f g hij hf hg ht

theorem rows_state {m : Mesh C} {F : List Face} (hp : ∀ f ∈ F, Proper m f)
    (hc : ∀ (i j : ℕ) (f g : Face), i ≠ j → F[i]? = some f → F[j]? = some g → Touch m f g → ¬ SameWay m f g)
    (hchain : ∀ (j : ℕ) (g : Face), 0 < j → F[j]? = some g → ∃ (i : ℕ) (f : Face), i < j ∧ F[i]? = some f ∧ Touch m f g)
    (fs : List Face) (s : ℕ → Bool) (h : State F fs s) : ∀ i, i ≤ F.length →
      ∃ s', State F (((List.range i).flatMap fun i => (List.range F.length).map fun j => (i, j)).foldl (orientStep (samePlace m.vertices) false) (fs, 0)).1 s' ∧
        s' 0 = s 0 ∧ (∀ k < i, s' k = s 0) ∧
        ∀ k < i, ∀ (j : ℕ) (f g : Face), k ≠ j → F[k]? = some f → F[j]? = some g → Touch m f g → s' j = s 0
  | 0, _ => ⟨s, h, rfl, by simp, by simp⟩
  | i + 1, hi => by
      obtain ⟨s1, a1, a2, a3, a4⟩ := rows_state hp hc hchain fs s h i (by omega)
      have hsi : s1 i = s 0 := by
        rcases Nat.eq_zero_or_pos i with rfl | hpos
        · exact a2
        · have hg := List.getElem?_eq_getElem (show i < F.length by omega)
          obtain ⟨k, f, hk, hf, ht⟩ := hchain i _ hpos hg
          exact a4 k hk i f _ (by omega) hf hg ht
      obtain ⟨s2, b1, b2, b3⟩ := row_state hp hc i (s 0) (List.range F.length) _ s1 a1 hsi
      rw [List.range_succ, List.flatMap_append, List.foldl_append, List.flatMap_singleton]
      refine ⟨s2, b1, b2 _ a2, ?_, ?_⟩
      · intro k hk
        rcases Nat.lt_succ_iff_lt_or_eq.1 hk with hk | rfl
        · exact b2 k (a3 k hk)
        · exact b2 _ hsi
      · intro k hk j f g hkj hf hg ht
        rcases Nat.lt_succ_iff_lt_or_eq.1 hk with hk | rfl
        · exact b2 j (a4 k hk j f g hkj hf hg ht)
        · exact b3 j (List.mem_range.2 (List.getElem?_eq_some_iff.1 hg).1) f g hkj hf hg ht

/-- If the faces can be flipped so that they agree, and every face but the first touches an earlier one, the faces agree afterwards,
and the first one is kept. Missing: other orders of the faces (`C125_order_false`). -/
theorem C125_orient_partial (m : Mesh C) (hv : m.Valid) (hp : ∀ f ∈ m.faces, Proper m f) (o : ℕ → Bool)
    (ho : Consistent { m with faces := m.faces.mapIdx fun j f => if o j then f.flipOrientation else f })
    (hchain : ∀ (j : ℕ) (g : Face), 0 < j → m.faces[j]? = some g → ∃ (i : ℕ) (f : Face), i < j ∧ m.faces[i]? = some f ∧ Touch m f g) :
    ∃ (fs : List Face) (n : ℕ), m.checkAndCorrectNormals false = .ok ({ m with faces := fs }, n) ∧ Consistent { m with faces := fs } ∧
      List.Forall₂ KeptOrFlipped m.faces fs ∧ fs[0]? = m.faces[0]? := by
  let F : List Face := m.faces.mapIdx fun j f => oriented f (o j)
  have hF : ∀ (j : ℕ) (g : Face), F[j]? = some g ↔ ∃ f, m.faces[j]? = some f ∧ g = oriented f (o j) := by
    intro j g
    simp only [F, List.getElem?_mapIdx, Option.map_eq_some_iff]
    constructor
    · rintro ⟨f, h1, h2⟩; exact ⟨f, h1, h2.symm⟩
    · rintro ⟨f, h1, h2⟩; exact ⟨f, h1, h2.symm⟩
  have hlen : F.length = m.faces.length := by simp [F]
  have hpF : ∀ f ∈ F, Proper m f := by
    intro f hf
    obtain ⟨j, hj⟩ := List.getElem?_of_mem hf
    obtain ⟨g, hg, rfl⟩ := (hF j f).1 hj
    exact proper_oriented (hp g (List.mem_of_getElem? hg)) _
  have hcF : ∀ (i j : ℕ) (f g : Face), i ≠ j → F[i]? = some f → F[j]? = some g → Touch m f g → ¬ SameWay m f g := ho
  have hchF : ∀ (j : ℕ) (g : Face), 0 < j → F[j]? = some g → ∃ (i : ℕ) (f : Face), i < j ∧ F[i]? = some f ∧ Touch m f g := by
    intro j g hj hg
    obtain ⟨g', hg', rfl⟩ := (hF j g).1 hg
    obtain ⟨i, f, h1, h2, h3⟩ := hchain j g' hj hg'
    exact ⟨i, _, h1, (hF i _).2 ⟨f, h2, rfl⟩, (touch_oriented _ _).2 h3⟩
  have horig : ∀ (f : Face) (b : Bool), oriented (oriented f b) b = f := by
    intro f b
    rcases b with _ | _
    · rfl
    · exact flip_flip f
  have hst : State F m.faces o := by
    refine ⟨hlen.symm, fun j g hg => ?_⟩
    obtain ⟨f, hf, rfl⟩ := (hF j g).1 hg
    rw [horig, hf]
  obtain ⟨s, h1, h2, h3, -⟩ := rows_state hpF hcF hchF m.faces o hst F.length (le_refl _)
  obtain ⟨k1, -, -⟩ := orient_kept (samePlace m.vertices) false m.faces _ (m.faces, 0) (kept_refl _)
  refine ⟨_, _, check_eq hv false, ?_, k1, ?_⟩
  · intro i j f g hij hf hg ht hw
    dsimp only at hf hg
    unfold orientLoop at hf hg
    rw [← hlen] at hf hg
    have get : ∀ (j : ℕ) (g : Face), (((List.range F.length).flatMap fun i => (List.range F.length).map fun j => (i, j)).foldl
        (orientStep (samePlace m.vertices) false) (m.faces, 0)).1[j]? = some g → ∃ g0, F[j]? = some g0 ∧ g = oriented g0 (o 0) := by
      intro j g hg
      have hlt := (List.getElem?_eq_some_iff.1 hg).1
      rw [h1.1] at hlt
      have e := List.getElem?_eq_getElem hlt
      have := h1.2 j _ e
      rw [hg] at this
      cases this
      exact ⟨_, e, by rw [h3 j hlt]⟩
    obtain ⟨f0, e1, rfl⟩ := get i f hf
    obtain ⟨g0, e2, rfl⟩ := get j g hg
    have pf := hpF f0 (List.mem_of_getElem? e1)
    have pg := hpF g0 (List.mem_of_getElem? e2)
    have := mustFlip_oriented pf pg (hcF i j f0 g0 hij e1 e2) (o 0) (o 0)
    rw [mustFlip_iff (proper_oriented pf _) (proper_oriented pg _)] at this
    exact (this.1 ⟨ht, hw⟩).2 rfl
  · rcases h0 : m.faces[0]? with _ | f
    · have hz : m.faces = [] := by
        rw [List.getElem?_eq_none_iff] at h0
        exact List.eq_nil_of_length_eq_zero (by omega)
      simp [orientLoop, hz]
    · have := h1.2 0 _ ((hF 0 _).2 ⟨f, h0, rfl⟩)
      rw [h2, horig] at this
      unfold orientLoop
      rw [← hlen]
      exact this

/-! ## What goes wrong -/

/-- With `inverted` two faces that touch and agree do not agree afterwards. -/
theorem C125_inverted_false (m : Mesh C) (hv : m.Valid) (hp : ∀ f ∈ m.faces, Proper m f) (f g : Face) (hf : m.faces = [f, g]) (ht : Touch m f g)
    (h : Consistent m) : ∃ (fs : List Face) (n : ℕ), m.checkAndCorrectNormals true = .ok ({ m with faces := fs }, n) ∧ ¬ Consistent { m with faces := fs } := by
  have pf := hp f (by simp [hf])
  have pg := hp g (by simp [hf])
  have hno : mustFlip (samePlace m.vertices) false f g = false := by
    rw [Bool.eq_false_iff]
    intro hm
    obtain ⟨h1, h2⟩ := (mustFlip_iff pf pg).1 hm
    exact h 0 1 f g (by simp) (by simp [hf]) (by simp [hf]) h1 h2
  have e1 : mustFlip (samePlace m.vertices) true f g = true := by
    rw [mustFlip_inverted pf pg, hno, decide_eq_true (touch_iff.1 ht)]
    rfl
  have hfg : mustFlip (samePlace m.vertices) false f g.flipOrientation = true := by
    rw [mustFlip_right pf pg, hno, decide_eq_true (touch_iff.1 ht)]
    rfl
  obtain ⟨t1, w1⟩ := (mustFlip_iff pf (proper_flip pg)).1 hfg
  have w2 : SameWay m g.flipOrientation f := by
    obtain ⟨c, d, h1, h2⟩ := w1
    exact ⟨d, c, h1.symm, h2.symm⟩
  have e2 : mustFlip (samePlace m.vertices) true g.flipOrientation f = false := by
    have := (mustFlip_iff (proper_flip pg) pf).2 ⟨touch_symm t1, w2⟩
    rw [mustFlip_inverted (proper_flip pg) pf, this]
    simp
  have hres : orientLoop (samePlace m.vertices) true m.faces = ([f, g.flipOrientation], 1) := by
    rw [hf]
    simp [orientLoop, List.range_succ, orientStep, e1, e2]
  refine ⟨_, _, check_eq hv true, ?_⟩
  rw [hres]
  intro hc
  exact hc 0 1 f g.flipOrientation (by simp) rfl rfl t1 w1

theorem orient_congr {eq eq' : ℕ → ℕ → Bool} {n : ℕ} (he : ∀ a < n, ∀ b < n, eq a b = eq' a b) (inverted : Bool) : ∀ (l : List (ℕ × ℕ)) (s : List Face × ℕ), validIds s.1 n →
    l.foldl (orientStep eq inverted) s = l.foldl (orientStep eq' inverted) s
  | [], s, _ => rfl
  | ij :: l, s, hv => by
      have hm : ∀ f ∈ s.1, ∀ g ∈ s.1, mustFlip eq inverted f g = mustFlip eq' inverted f g := by
        intro f hf g hg
        rw [mustFlip_eq, mustFlip_eq]
        congr 1
        funext a b
        exact he _ (hv f hf a) _ (hv g hg b)
      have e : orientStep eq inverted s ij = orientStep eq' inverted s ij ∧ validIds (orientStep eq inverted s ij).1 n := by
        unfold orientStep
        by_cases hij : ij.1 = ij.2
        · rw [if_pos hij, if_pos hij]; exact ⟨rfl, hv⟩
        · rw [if_neg hij, if_neg hij]
          rcases h1 : s.1[ij.1]? with _ | f
          · exact ⟨rfl, hv⟩
          · rcases h2 : s.1[ij.2]? with _ | g
            · exact ⟨rfl, hv⟩
            · dsimp only
              rw [hm f (List.mem_of_getElem? h1) g (List.mem_of_getElem? h2)]
              split
              · refine ⟨rfl, ?_⟩
                intro f' hf' c
                rcases List.mem_or_eq_of_mem_set hf' with h | rfl
                · exact hv f' h c
                · exact flip_lt (hv g (List.mem_of_getElem? h2)) c
              · exact ⟨rfl, hv⟩
      rw [List.foldl_cons, List.foldl_cons, ← e.1]
      exact orient_congr he inverted l _ e.2

/-- A face with the given corners. -/
def corners (a b c : ℕ) : Face := ⟨![a, b, c], fun _ => noId, fun _ => noId, none⟩

/-- A strip of four triangles, the outer one on one side turned over. -/
noncomputable def strip : Mesh ℕ := ⟨[], [![0, 0, 0], ![1, 0, 0], ![2, 0, 0], ![3, 0, 0], ![4, 0, 0], ![5, 0, 0]], [],
  [corners 2 3 4, corners 4 3 5, corners 2 1 0, corners 2 1 3], BBox.clear⟩

theorem strip_place {a b : ℕ} (ha : a < 6) (hb : b < 6) : strip.vertices[a]? = strip.vertices[b]? ↔ a = b := by
  constructor
  · intro h
    interval_cases a <;> interval_cases b <;> first
      | rfl
      | (exfalso
         simp only [strip, List.getElem?_cons_succ, List.getElem?_cons_zero, Option.some.injEq] at h
         have := congrFun h 0
         simp at this)
  · rintro rfl; rfl

theorem strip_ids : ∀ f ∈ strip.faces, ∀ c, f.id c < 6 := by
  intro f hf c
  simp only [strip, List.mem_cons, List.not_mem_nil, or_false] at hf
  rcases hf with rfl | rfl | rfl | rfl <;> fin_cases c <;> simp [corners]

theorem strip_touch {f g : Face} (hf : ∀ c, f.id c < 6) (hg : ∀ c, g.id c < 6) :
    Touch strip f g ↔ (Finset.univ.filter fun ab : Fin 3 × Fin 3 => f.id ab.1 = g.id ab.2).card = 2 := by
  unfold Touch
  have : (Finset.univ.filter fun ab : Fin 3 × Fin 3 => strip.place f ab.1 = strip.place g ab.2) = Finset.univ.filter fun ab : Fin 3 × Fin 3 => f.id ab.1 = g.id ab.2 := by
    ext ab
    simp only [Finset.mem_filter, Finset.mem_univ, true_and]
    exact strip_place (hf _) (hg _)
  rw [this]

theorem strip_same {f g : Face} (hf : ∀ c, f.id c < 6) (hg : ∀ c, g.id c < 6) :
    SameWay strip f g ↔ ∃ c d : Fin 3, f.id c = g.id d ∧ f.id (c + 1) = g.id (d + 1) := by
  unfold SameWay Mesh.place
  constructor
  · rintro ⟨c, d, h1, h2⟩
    exact ⟨c, d, (strip_place (hf _) (hg _)).1 h1, (strip_place (hf _) (hg _)).1 h2⟩
  · rintro ⟨c, d, h1, h2⟩
    exact ⟨c, d, (strip_place (hf _) (hg _)).2 h1, (strip_place (hf _) (hg _)).2 h2⟩

/-- The order of the faces matters: in this strip, every face of which touches the next one, and whose third face only has to be
flipped, the faces do not agree afterwards. -/
theorem C125_order_false : ∃ (m : Mesh ℕ) (o : ℕ → Bool), m.Valid ∧ (∀ f ∈ m.faces, Proper m f) ∧
    Consistent { m with faces := m.faces.mapIdx fun j f => if o j then f.flipOrientation else f } ∧
    (∃ a b c d : Face, m.faces = [c, d, a, b] ∧ Touch m a b ∧ Touch m b c ∧ Touch m c d) ∧
    ∃ (fs : List Face) (n : ℕ), m.checkAndCorrectNormals false = .ok ({ m with faces := fs }, n) ∧ ¬ Consistent { m with faces := fs } := by
  have hv : strip.Valid := strip_ids
  have ids := strip_ids
  have hlt : ∀ {a b c : ℕ}, a < 6 → b < 6 → c < 6 → ∀ x, (corners a b c).id x < 6 := by
    intro a b c ha hb hc x
    fin_cases x <;> simpa [corners]
  refine ⟨strip, fun j => j == 2, hv, ?_, ?_, ⟨corners 2 1 0, corners 2 1 3, corners 2 3 4, corners 4 3 5, rfl, ?_, ?_, ?_⟩, _, _, check_eq hv false, ?_⟩
  · intro f hf c d h
    have := (strip_place (ids f hf c) (ids f hf d)).1 h
    simp only [strip, List.mem_cons, List.not_mem_nil, or_false] at hf
    rcases hf with rfl | rfl | rfl | rfl <;> revert this <;> revert c d <;> intro c d _ <;> fin_cases c <;> fin_cases d <;> simp [corners]
  · have key : ∀ f ∈ [corners 2 3 4, corners 4 3 5, corners 0 1 2, corners 2 1 3], ∀ g ∈ [corners 2 3 4, corners 4 3 5, corners 0 1 2, corners 2 1 3],
        f.id ≠ g.id → ¬ SameWay strip f g := by
      intro f hf g hg hne
      have hl : ∀ f ∈ [corners 2 3 4, corners 4 3 5, corners 0 1 2, corners 2 1 3], ∀ c, f.id c < 6 := by
        intro f hf c
        simp only [List.mem_cons, List.not_mem_nil, or_false] at hf
        rcases hf with rfl | rfl | rfl | rfl <;> fin_cases c <;> simp [corners]
      rw [strip_same (hl f hf) (hl g hg)]
      simp only [List.mem_cons, List.not_mem_nil, or_false] at hf hg
      rcases hf with rfl | rfl | rfl | rfl <;> rcases hg with rfl | rfl | rfl | rfl <;> first
        | exact absurd rfl hne
        | (clear hne; decide +kernel)
    have hF : (strip.faces.mapIdx fun j f => if (j == 2) = true then f.flipOrientation else f) = [corners 2 3 4, corners 4 3 5, corners 0 1 2, corners 2 1 3] := by
      have hc : (corners 2 1 0).flipOrientation = corners 0 1 2 := by
        simp only [corners, Face.flipOrientation]
        congr 1
      simp [strip, hc]
    intro i j f g hij hf hg _
    dsimp only at hf hg
    rw [hF] at hf hg
    refine key f (List.mem_of_getElem? hf) g (List.mem_of_getElem? hg) ?_
    have hi := (List.getElem?_eq_some_iff.1 hf).1
    have hj := (List.getElem?_eq_some_iff.1 hg).1
    simp only [List.length_cons, List.length_nil] at hi hj
    interval_cases i <;> interval_cases j <;> simp_all <;> subst hf hg <;> intro h <;> have h0 := congrFun h 0 <;> have h1 := congrFun h 1 <;> have h2 := congrFun h 2 <;> simp [corners] at h0 h1 h2
  · rw [strip_touch (hlt (by omega) (by omega) (by omega)) (hlt (by omega) (by omega) (by omega))]; decide +kernel
  · rw [strip_touch (hlt (by omega) (by omega) (by omega)) (hlt (by omega) (by omega) (by omega))]; decide +kernel
  · rw [strip_touch (hlt (by omega) (by omega) (by omega)) (hlt (by omega) (by omega) (by omega))]; decide +kernel
  · have hres : (orientLoop (fun a b => a == b) false strip.faces).1.map (fun f => [f.id 0, f.id 1, f.id 2]) = [[4, 3, 2], [4, 3, 5], [2, 1, 0], [3, 1, 2]] := by
      decide +kernel
    have he : orientLoop (samePlace strip.vertices) false strip.faces = orientLoop (fun a b => a == b) false strip.faces := by
      refine orient_congr (n := 6) ?_ false _ _ ids
      intro a ha b hb
      rw [Bool.eq_iff_iff]
      simp only [samePlace, decide_eq_true_eq, beq_iff_eq]
      exact strip_place ha hb
    rw [he]
    generalize (orientLoop (fun a b => a == b) false strip.faces).1 = fs at hres
    rcases fs with _ | ⟨f, _ | ⟨g, fs⟩⟩
    · simp at hres
    · simp at hres
    · simp only [List.map_cons, List.cons.injEq, List.map_nil] at hres
      obtain ⟨⟨f0, f1, f2, -⟩, ⟨g0, g1, g2, -⟩, -⟩ := hres
      have ef : f.id = ![4, 3, 2] := by funext x; fin_cases x <;> assumption
      have eg : g.id = ![4, 3, 5] := by funext x; fin_cases x <;> assumption
      have lf : ∀ c, f.id c < 6 := by intro c; rw [ef]; fin_cases c <;> simp
      have lg : ∀ c, g.id c < 6 := by intro c; rw [eg]; fin_cases c <;> simp
      intro hc
      refine hc 0 1 f g (by simp) rfl rfl ((strip_touch lf lg).2 ?_) ((strip_same lf lg).2 ?_)
      · rw [ef, eg]; decide +kernel
      · rw [ef, eg]; decide +kernel

/-- The theorem about the order applies to the strip in another order. -/
example : ∃ (m : Mesh ℕ) (o : ℕ → Bool), m.faces.length = 2 ∧ m.Valid ∧ (∀ f ∈ m.faces, Proper m f) ∧
    Consistent { m with faces := m.faces.mapIdx fun j f => if o j then f.flipOrientation else f } ∧
    (∀ (j : ℕ) (g : Face), 0 < j → m.faces[j]? = some g → ∃ (i : ℕ) (f : Face), i < j ∧ m.faces[i]? = some f ∧ Touch m f g) ∧ ¬ Consistent m := by
  let m : Mesh ℕ := { strip with faces := [corners 0 1 2, corners 1 2 3] }
  have hlt : ∀ {a b c : ℕ}, a < 6 → b < 6 → c < 6 → ∀ x, (corners a b c).id x < 6 := by
    intro a b c ha hb hc x
    fin_cases x <;> simpa [corners]
  have l1 : ∀ x, (corners 0 1 2).id x < 6 := hlt (by omega) (by omega) (by omega)
  have l2 : ∀ x, (corners 1 2 3).id x < 6 := hlt (by omega) (by omega) (by omega)
  have l3 : ∀ x, (corners 3 2 1).id x < 6 := hlt (by omega) (by omega) (by omega)
  have hc : (corners 1 2 3).flipOrientation = corners 3 2 1 := by
    simp only [corners, Face.flipOrientation]
    congr 1
  have ht : Touch strip (corners 0 1 2) (corners 1 2 3) := (strip_touch l1 l2).2 (by decide +kernel)
  have hF : (m.faces.mapIdx fun j f => if (j == 1) = true then f.flipOrientation else f) = [corners 0 1 2, corners 3 2 1] := by simp [m, hc]
  refine ⟨m, fun j => j == 1, rfl, ?_, ?_, ?_, ?_, ?_⟩
  · intro f hf
    simp only [m, List.mem_cons, List.not_mem_nil, or_false] at hf
    rcases hf with rfl | rfl
    · exact l1
    · exact l2
  · intro f hf c d h
    simp only [m, List.mem_cons, List.not_mem_nil, or_false] at hf
    rcases hf with rfl | rfl
    · have := (strip_place (l1 c) (l1 d)).1 h
      revert this; fin_cases c <;> fin_cases d <;> simp [corners]
    · have := (strip_place (l2 c) (l2 d)).1 h
      revert this; fin_cases c <;> fin_cases d <;> simp [corners]
  · intro i j f g hij hf hg _
    dsimp only at hf hg
    rw [hF] at hf hg
    have hi := (List.getElem?_eq_some_iff.1 hf).1
    have hj := (List.getElem?_eq_some_iff.1 hg).1
    simp only [List.length_cons, List.length_nil] at hi hj
    have : ¬ SameWay strip (corners 0 1 2) (corners 3 2 1) := by rw [strip_same l1 l3]; decide +kernel
    have : ¬ SameWay strip (corners 3 2 1) (corners 0 1 2) := by rw [strip_same l3 l1]; decide +kernel
    rcases i with _ | _ | i
    · rcases j with _ | _ | j
      · exact absurd rfl hij
      · cases hf; cases hg; assumption
      · omega
    · rcases j with _ | _ | j
      · cases hf; cases hg; assumption
      · exact absurd rfl hij
      · omega
    · omega
  · intro j g hj hg
    rcases j with _ | _ | j
    · omega
    · cases hg
      exact ⟨0, _, by omega, rfl, ht⟩
    · cases hg
  · intro h
    exact h 0 1 _ _ (by simp) rfl rfl ht ((strip_same l1 l2).2 (by decide +kernel))

/-- Two triangles that touch and agree. -/
example : ∃ (m : Mesh ℕ) (f g : Face), m.Valid ∧ (∀ f ∈ m.faces, Proper m f) ∧ m.faces = [f, g] ∧ Touch m f g ∧ Consistent m := by
  let m : Mesh ℕ := { strip with faces := [corners 0 1 2, corners 3 2 1] }
  have hlt : ∀ {a b c : ℕ}, a < 6 → b < 6 → c < 6 → ∀ x, (corners a b c).id x < 6 := by
    intro a b c ha hb hc x
    fin_cases x <;> simpa [corners]
  have l1 : ∀ x, (corners 0 1 2).id x < 6 := hlt (by omega) (by omega) (by omega)
  have l3 : ∀ x, (corners 3 2 1).id x < 6 := hlt (by omega) (by omega) (by omega)
  refine ⟨m, corners 0 1 2, corners 3 2 1, ?_, ?_, rfl, (strip_touch l1 l3).2 (by decide +kernel), ?_⟩
  · intro f hf
    simp only [m, List.mem_cons, List.not_mem_nil, or_false] at hf
    rcases hf with rfl | rfl
    · exact l1
    · exact l3
  · intro f hf c d h
    simp only [m, List.mem_cons, List.not_mem_nil, or_false] at hf
    rcases hf with rfl | rfl
    · have := (strip_place (l1 c) (l1 d)).1 h
      revert this; fin_cases c <;> fin_cases d <;> simp [corners]
    · have := (strip_place (l3 c) (l3 d)).1 h
      revert this; fin_cases c <;> fin_cases d <;> simp [corners]
  · intro i j f g hij hf hg _
    have hi := (List.getElem?_eq_some_iff.1 hf).1
    have hj := (List.getElem?_eq_some_iff.1 hg).1
    simp only [m, List.length_cons, List.length_nil] at hi hj
    have : ¬ SameWay strip (corners 0 1 2) (corners 3 2 1) := by rw [strip_same l1 l3]; decide +kernel
    have : ¬ SameWay strip (corners 3 2 1) (corners 0 1 2) := by rw [strip_same l3 l1]; decide +kernel
    rcases i with _ | _ | i
    · rcases j with _ | _ | j
      · exact absurd rfl hij
      · cases hf; cases hg; assumption
      · omega
    · rcases j with _ | _ | j
      · cases hf; cases hg; assumption
      · exact absurd rfl hij
      · omega
    · omega

end Simox.Msh
