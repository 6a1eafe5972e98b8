import Verif.Msh.Box
import Mathlib.Tactic.Linarith
import Mathlib.Tactic.NormNum
import Mathlib.Tactic.FinCases
import Mathlib.Data.Fin.VecNotation

/-!
# C121: bounding boxes
-/

namespace Simox.Msh

open Matrix Jac Rot

/-! ## Specification -/

/-- The least and the greatest of some numbers, NaN if there are none. -/
def Extremes (ks : List ℝ) (lo hi : Fl) : Prop :=
  (ks = [] ∧ lo = none ∧ hi = none) ∨ ∃ a b, lo = some a ∧ hi = some b ∧ a ∈ ks ∧ b ∈ ks ∧ ∀ k ∈ ks, a ≤ k ∧ k ≤ b

/-- The coordinates of some points in one direction that are not NaN. -/
def coords (ps : List (Fin 3 → Fl)) (j : Fin 3) : List ℝ := ps.filterMap fun p => p j

/-- The box is the smallest one around the points. -/
def BBox.Around (b : BBox) (ps : List (Fin 3 → Fl)) : Prop := ∀ j, Extremes (coords ps j) (b.min j) (b.max j)

/-- The bounds of a box. -/
def BBox.Has (b : BBox) (lo hi : V3) : Prop := b.min = real lo ∧ b.max = real hi

/-- A point is in the box with these bounds. -/
def Between (lo hi x : V3) : Prop := ∀ j, lo j ≤ x j ∧ x j ≤ hi j

/-! ## Helpers -/

theorem coords_real (j : Fin 3) : ∀ l : List V3, coords (l.map real) j = l.map fun p => p j
  | [] => rfl
  | p :: l => by
      have ih := coords_real j l
      unfold coords at ih ⊢
      rw [List.map_cons, List.filterMap_cons_some (f := fun p : Fin 3 → Fl => p j) (b := p j) rfl, ih, List.map_cons]

theorem extremes_snoc (ks : List ℝ) (k : ℝ) (lo hi : Fl) (h : Extremes ks lo hi) : ∀ (dlo : Decidable (lo = none ∨ Fl.lt (some k) lo))
    (dhi : Decidable (hi = none ∨ Fl.lt hi (some k))),
    Extremes (ks ++ [k]) (@ite _ (lo = none ∨ Fl.lt (some k) lo) dlo (some k) lo) (@ite _ (hi = none ∨ Fl.lt hi (some k)) dhi (some k) hi) := by
  intro dlo dhi
  rcases h with ⟨rfl, rfl, rfl⟩ | ⟨a, b, rfl, rfl, ha, hb, h⟩
  · rw [if_pos (.inl rfl), if_pos (.inl rfl)]
    exact .inr ⟨k, k, rfl, rfl, by simp, by simp, by simp⟩
  · right
    have hab := h a ha
    have hba := h b hb
    by_cases h1 : k < a
    · rw [if_pos (.inr (by exact h1))]
      by_cases h2 : b < k
      · linarith
      · rw [if_neg (by simp [Fl.lt, not_lt.1 h2])]
        exact ⟨k, b, rfl, rfl, by simp, by simp [hb], by
          intro k' hk'
          rcases List.mem_append.1 hk' with hk' | hk'
          · exact ⟨by linarith [h k' hk'], (h k' hk').2⟩
          · rw [List.mem_singleton.1 hk']; exact ⟨le_refl _, by linarith⟩⟩
    · rw [if_neg (by simp [Fl.lt, not_lt.1 h1])]
      by_cases h2 : b < k
      · rw [if_pos (.inr (by exact h2))]
        exact ⟨a, k, rfl, rfl, by simp [ha], by simp, by
          intro k' hk'
          rcases List.mem_append.1 hk' with hk' | hk'
          · exact ⟨(h k' hk').1, by linarith [h k' hk']⟩
          · rw [List.mem_singleton.1 hk']; exact ⟨by linarith, le_refl _⟩⟩
      · rw [if_neg (by simp [Fl.lt, not_lt.1 h2])]
        exact ⟨a, b, rfl, rfl, by simp [ha], by simp [hb], by
          intro k' hk'
          rcases List.mem_append.1 hk' with hk' | hk'
          · exact h k' hk'
          · rw [List.mem_singleton.1 hk']; exact ⟨by linarith, by linarith⟩⟩

theorem addPoint_around {b : BBox} {ps : List (Fin 3 → Fl)} (h : b.Around ps) (p : Fin 3 → Fl) : (b.addPoint p).Around (ps ++ [p]) := by
  intro j
  have hj := h j
  unfold BBox.addPoint
  dsimp only
  rcases hp : p j with _ | k
  · have e : coords (ps ++ [p]) j = coords ps j := by simp [coords, List.filterMap_append, hp]
    rw [e]
    rcases hmin : b.min j with _ | a
    · rcases hj with ⟨h1, h2, h3⟩ | ⟨a, b', h1, h2, -⟩
      · left
        refine ⟨h1, by simp, ?_⟩
        rw [h3]; simp
      · rw [hmin] at h1; simp at h1
    · rw [if_neg (by simp [Fl.lt])]
      rcases hmax : b.max j with _ | c
      · rcases hj with ⟨h1, h2, h3⟩ | ⟨a, b', h1, h2, -⟩
        · rw [hmin] at h2; simp at h2
        · rw [hmax] at h2; simp at h2
      · rw [if_neg (by simp [Fl.lt]), ← hmin, ← hmax]
        exact hj
  · have e : coords (ps ++ [p]) j = coords ps j ++ [k] := by simp [coords, List.filterMap_append, hp]
    rw [e]
    exact extremes_snoc _ _ _ _ hj _ _

theorem addPoints_around : ∀ (qs : List (Fin 3 → Fl)) {b : BBox} {ps : List (Fin 3 → Fl)}, b.Around ps → (b.addPoints qs).Around (ps ++ qs)
  | [], b, ps, h => by simpa [BBox.addPoints] using h
  | q :: qs, b, ps, h => by
      have := addPoints_around qs (addPoint_around h q)
      simpa [BBox.addPoints, List.append_assoc] using this

theorem values_of_has {b : BBox} {lo hi : V3} (h : b.Has lo hi) : b.values = some (lo, hi) := by
  unfold BBox.values
  rw [h.1, h.2]
  simp only [real]
  congr 1
  refine Prod.ext ?_ ?_ <;> funext j <;> fin_cases j <;> rfl

/-- Corners of a box. -/
def corner (lo hi : V3) (a b c : Bool) : V3 := ![if a then hi 0 else lo 0, if b then hi 1 else lo 1, if c then hi 2 else lo 2]

theorem mem_getPoints {b : BBox} {lo hi : V3} (h : b.Has lo hi) (p : V3) : p ∈ b.getPoints ↔ ∀ j, p j = lo j ∨ p j = hi j := by
  unfold BBox.getPoints
  rw [values_of_has h]
  constructor
  · intro hp
    simp only [List.mem_cons, List.not_mem_nil, or_false] at hp
    rcases hp with rfl | rfl | rfl | rfl | rfl | rfl | rfl | rfl <;> intro j <;> fin_cases j <;> simp
  · intro hp
    have e : p = ![p 0, p 1, p 2] := by funext j; fin_cases j <;> rfl
    rw [e]
    rcases hp 0 with h0 | h0 <;> rcases hp 1 with h1 | h1 <;> rcases hp 2 with h2 | h2 <;> rw [h0, h1, h2] <;> simp

theorem around_has {b : BBox} {ps : List V3} (h : b.Around (ps.map real)) (hne : ps ≠ []) : ∃ lo hi, b.Has lo hi ∧
    (∀ p ∈ ps, Between lo hi p) ∧ ∀ j, (∃ p ∈ ps, p j = lo j) ∧ ∃ p ∈ ps, p j = hi j := by
  have hc : ∀ j, coords (ps.map real) j = ps.map fun p => p j := fun j => coords_real j ps
  have : ∀ j, ∃ a b' : ℝ, b.min j = some a ∧ b.max j = some b' ∧ (∃ p ∈ ps, p j = a) ∧ (∃ p ∈ ps, p j = b') ∧ ∀ p ∈ ps, a ≤ p j ∧ p j ≤ b' := by
    intro j
    rcases h j with ⟨h1, -⟩ | ⟨a, b', h1, h2, h3, h4, h5⟩
    · rw [hc] at h1
      simp at h1
      exact absurd h1 hne
    · rw [hc] at h3 h4 h5
      obtain ⟨p, hp, e1⟩ := List.mem_map.1 h3
      obtain ⟨q, hq, e2⟩ := List.mem_map.1 h4
      exact ⟨a, b', h1, h2, ⟨p, hp, e1⟩, ⟨q, hq, e2⟩, fun p hp => h5 _ (List.mem_map.2 ⟨p, hp, rfl⟩)⟩
  choose lo hi h1 h2 h3 h4 h5 using this
  exact ⟨lo, hi, ⟨funext h1, funext h2⟩, fun p hp j => h5 j p hp, fun j => ⟨h3 j, h4 j⟩⟩

theorem has_around {b : BBox} {ps : List V3} {lo hi : V3} (hb : b.Has lo hi) (h1 : ∀ p ∈ ps, Between lo hi p)
    (h2 : ∀ j, (∃ p ∈ ps, p j = lo j) ∧ ∃ p ∈ ps, p j = hi j) : b.Around (ps.map real) := by
  have hc : ∀ j, coords (ps.map real) j = ps.map fun p => p j := fun j => coords_real j ps
  intro j
  rw [hc]
  right
  refine ⟨lo j, hi j, by rw [hb.1]; rfl, by rw [hb.2]; rfl, ?_, ?_, ?_⟩
  · obtain ⟨p, hp, e⟩ := (h2 j).1
    exact List.mem_map.2 ⟨p, hp, e⟩
  · obtain ⟨p, hp, e⟩ := (h2 j).2
    exact List.mem_map.2 ⟨p, hp, e⟩
  · intro k hk
    obtain ⟨p, hp, rfl⟩ := List.mem_map.1 hk
    exact h1 p hp j

/-! ## Properties -/

/-- After any history of added points the box is the smallest one around all of them, in every direction (coordinates
that are NaN are left out). -/
theorem C121_points : BBox.clear.Around [] ∧
    (∀ (b : BBox) ps qs, b.Around ps → (b.addPoints qs).Around (ps ++ qs)) ∧ ∀ ps, (BBox.ofPoints ps).Around ps :=
  ⟨fun _ => .inl ⟨rfl, rfl, rfl⟩, fun _ _ qs h => addPoints_around qs h, fun ps => by
    have : BBox.clear.Around [] := fun _ => .inl ⟨rfl, rfl, rfl⟩
    simpa [BBox.ofPoints] using addPoints_around ps this⟩

/-- The smallest box around points is determined by them. -/
theorem C121_unique (b c : BBox) (ps : List (Fin 3 → Fl)) (hb : b.Around ps) (hc : c.Around ps) : b = c := by
  have key : ∀ j, b.min j = c.min j ∧ b.max j = c.max j := by
    intro j
    rcases hb j with ⟨h0, h1, h2⟩ | ⟨a, a', h1, h2, h3, h4, h5⟩ <;> rcases hc j with ⟨k0, k1, k2⟩ | ⟨e, e', k1, k2, k3, k4, k5⟩
    · rw [h1, h2, k1, k2]; exact ⟨rfl, rfl⟩
    · rw [h0] at k3; simp at k3
    · rw [k0] at h3; simp at h3
    · have e1 : a = e := le_antisymm (h5 e k3).1 (k5 a h3).1
      have e2 : a' = e' := le_antisymm (k5 a' h4).2 (h5 e' k4).2
      rw [h1, h2, k1, k2, e1, e2]
      exact ⟨rfl, rfl⟩
  obtain ⟨b1, b2⟩ := b
  obtain ⟨c1, c2⟩ := c
  have e1 : b1 = c1 := funext fun j => (key j).1
  have e2 : b2 = c2 := funext fun j => (key j).2
  rw [e1, e2]

example : (BBox.ofPoints [real ![1, 2, 3], real ![0, 5, 1]]).Has ![0, 2, 1] ![1, 5, 3] := by
  have h := C121_points.2.2 [real ![1, 2, 3], real ![0, 5, 1]]
  have h' : (⟨real ![0, 2, 1], real ![1, 5, 3]⟩ : BBox).Around ([![1, 2, 3], ![0, 5, 1]].map real) := by
    refine has_around ⟨rfl, rfl⟩ ?_ ?_
    · intro p hp j
      simp only [List.mem_cons, List.not_mem_nil, or_false] at hp
      rcases hp with rfl | rfl <;> fin_cases j <;> norm_num
    · intro j
      fin_cases j
      · exact ⟨⟨![0, 5, 1], by simp, by simp⟩, ⟨![1, 2, 3], by simp, by simp⟩⟩
      · exact ⟨⟨![1, 2, 3], by simp, by simp⟩, ⟨![0, 5, 1], by simp, by simp⟩⟩
      · exact ⟨⟨![0, 5, 1], by simp, by simp⟩, ⟨![1, 2, 3], by simp, by simp⟩⟩
  rw [C121_unique _ _ _ h h']
  exact ⟨rfl, rfl⟩

/-- The points of a box are its eight corners. -/
theorem C121_corners (b : BBox) (lo hi : V3) (h : b.Has lo hi) :
    b.getPoints.length = 8 ∧ ∀ p, p ∈ b.getPoints ↔ ∀ j, p j = lo j ∨ p j = hi j := by
  refine ⟨?_, mem_getPoints h⟩
  unfold BBox.getPoints
  rw [values_of_has h]
  rfl

/-- Adding a box is adding all the points it was made of. -/
theorem C121_add_box (b c : BBox) (ps : List (Fin 3 → Fl)) (qs : List V3) (hb : b.Around ps) (hc : c.Around (qs.map real)) :
    (b.addBox c).Around (ps ++ qs.map real) := by
  by_cases hq : qs = []
  · subst hq
    have h0 := hc 0
    have : c.values = none := by
      unfold BBox.values
      rcases h0 with ⟨-, h1, -⟩ | ⟨a, b, -, -, h, -⟩
      · rw [h1]
      · simp [coords] at h
    unfold BBox.addBox BBox.getPoints
    rw [this]
    simpa [BBox.addPoints] using hb
  · obtain ⟨lo, hi, h1, h2, h3⟩ := around_has hc hq
    have hA := addPoints_around (c.getPoints.map real) hb
    intro j
    have := hA j
    have hcj := coords_real j
    have happ : ∀ l : List V3, coords (ps ++ l.map real) j = coords ps j ++ l.map fun p => p j := by
      intro l
      rw [← hcj]
      simp [coords]
    rw [happ] at this ⊢
    have hlohi : lo j ≤ hi j := by
      obtain ⟨p, hp, e⟩ := (h3 j).1
      have := (h2 p hp j).2
      rw [e] at this
      exact this
    have hmem : ∀ p ∈ c.getPoints, p j = lo j ∨ p j = hi j := fun p hp => (mem_getPoints h1 p).1 hp j
    have hlo : lo ∈ c.getPoints := (mem_getPoints h1 lo).2 fun j => .inl rfl
    have hhi : hi ∈ c.getPoints := (mem_getPoints h1 hi).2 fun j => .inr rfl
    have conv : ∀ p ∈ c.getPoints, ∃ q ∈ qs, q j = p j := by
      intro p hp
      rcases hmem p hp with e | e
      · obtain ⟨q, hq, e'⟩ := (h3 j).1; exact ⟨q, hq, by rw [e', e]⟩
      · obtain ⟨q, hq, e'⟩ := (h3 j).2; exact ⟨q, hq, by rw [e', e]⟩
    unfold BBox.addBox
    rcases this with ⟨h0, -⟩ | ⟨a, a', e1, e2, m1, m2, m3⟩
    · have : c.getPoints.map (fun p => p j) = [] := (List.append_eq_nil_iff.1 h0).2
      rw [List.map_eq_nil_iff] at this
      rw [this] at hlo
      simp at hlo
    · right
      have cm : ∀ a ∈ coords ps j ++ c.getPoints.map (fun p => p j), a ∈ coords ps j ++ qs.map fun p => p j := by
        intro a ha
        rcases List.mem_append.1 ha with ha | ha
        · exact List.mem_append.2 (.inl ha)
        · obtain ⟨p, hp, rfl⟩ := List.mem_map.1 ha
          obtain ⟨q, hq, e⟩ := conv p hp
          exact List.mem_append.2 (.inr (List.mem_map.2 ⟨q, hq, e⟩))
      refine ⟨a, a', e1, e2, cm a m1, cm a' m2, ?_⟩
      intro k hk
      rcases List.mem_append.1 hk with hk | hk
      · exact m3 k (List.mem_append.2 (.inl hk))
      · obtain ⟨q, hq, rfl⟩ := List.mem_map.1 hk
        have b1 := m3 (lo j) (List.mem_append.2 (.inr (List.mem_map.2 ⟨lo, hlo, rfl⟩)))
        have b2 := m3 (hi j) (List.mem_append.2 (.inr (List.mem_map.2 ⟨hi, hhi, rfl⟩)))
        have := h2 q hq j
        exact ⟨by linarith, by linarith⟩

theorem foldl_low (f : ℝ) (j : Fin 3) : ∀ (l : List V3) (m : V3),
    let r := l.foldl (fun m r j => @ite _ (r j < m j) (Classical.propDecidable _) (r j) (m j)) m
    (r j = m j ∨ ∃ x ∈ l, x j = r j) ∧ r j ≤ m j ∧ ∀ x ∈ l, r j ≤ x j
  | [], m => ⟨.inl rfl, le_refl _, by simp⟩
  | x :: l, m => by
      obtain ⟨h1, h2, h3⟩ := foldl_low f j l (fun j => @ite _ (x j < m j) (Classical.propDecidable _) (x j) (m j))
      simp only [List.foldl_cons]
      refine ⟨?_, ?_, ?_⟩
      · rcases h1 with h1 | ⟨y, hy, h1⟩
        · by_cases hx : x j < m j
          · rw [if_pos hx] at h1; exact .inr ⟨x, by simp, h1.symm⟩
          · rw [if_neg hx] at h1; exact .inl h1
        · exact .inr ⟨y, by simp [hy], h1⟩
      · by_cases hx : x j < m j
        · rw [if_pos hx] at h2; linarith
        · rw [if_neg hx] at h2; exact h2
      · intro y hy
        rcases List.mem_cons.1 hy with rfl | hy
        · by_cases hx : y j < m j
          · rw [if_pos hx] at h2; exact h2
          · rw [if_neg hx] at h2; linarith
        · exact h3 y hy

theorem foldl_high (f : ℝ) (j : Fin 3) : ∀ (l : List V3) (m : V3),
    let r := l.foldl (fun m r j => @ite _ (r j > m j) (Classical.propDecidable _) (r j) (m j)) m
    (r j = m j ∨ ∃ x ∈ l, x j = r j) ∧ m j ≤ r j ∧ ∀ x ∈ l, x j ≤ r j
  | [], m => ⟨.inl rfl, le_refl _, by simp⟩
  | x :: l, m => by
      obtain ⟨h1, h2, h3⟩ := foldl_high f j l (fun j => @ite _ (x j > m j) (Classical.propDecidable _) (x j) (m j))
      simp only [List.foldl_cons]
      refine ⟨?_, ?_, ?_⟩
      · rcases h1 with h1 | ⟨y, hy, h1⟩
        · by_cases hx : x j > m j
          · rw [if_pos hx] at h1; exact .inr ⟨x, by simp, h1.symm⟩
          · rw [if_neg hx] at h1; exact .inl h1
        · exact .inr ⟨y, by simp [hy], h1⟩
      · by_cases hx : x j > m j
        · rw [if_pos hx] at h2; linarith
        · rw [if_neg hx] at h2; exact h2
      · intro y hy
        rcases List.mem_cons.1 hy with rfl | hy
        · by_cases hx : y j > m j
          · rw [if_pos hx] at h2; exact h2
          · rw [if_neg hx] at h2; linarith
        · exact h3 y hy

/-- The value of a row of a matrix at a point of a box is between the ones at two corners. -/
theorem row_between (lo hi x a : V3) (hx : Between lo hi x) : (∃ c : V3, (∀ j, c j = lo j ∨ c j = hi j) ∧ a ⬝ᵥ c ≤ a ⬝ᵥ x) ∧
    ∃ c : V3, (∀ j, c j = lo j ∨ c j = hi j) ∧ a ⬝ᵥ x ≤ a ⬝ᵥ c := by
  have key : ∀ a : V3, ∃ c : V3, (∀ j, c j = lo j ∨ c j = hi j) ∧ a ⬝ᵥ c ≤ a ⬝ᵥ x := by
    intro a
    refine ⟨fun j => if 0 ≤ a j then lo j else hi j, fun j => ?_, ?_⟩
    · by_cases h : 0 ≤ a j
      · exact .inl (if_pos h)
      · exact .inr (if_neg h)
    · unfold dotProduct
      apply Finset.sum_le_sum
      intro j _
      dsimp only
      by_cases h : 0 ≤ a j
      · rw [if_pos h]; exact mul_le_mul_of_nonneg_left (hx j).1 h
      · rw [if_neg h]; exact mul_le_mul_of_nonpos_left (hx j).2 (le_of_lt (not_le.1 h))
  refine ⟨key a, ?_⟩
  obtain ⟨c, h1, h2⟩ := key (-a)
  refine ⟨c, h1, ?_⟩
  simpa [neg_dotProduct] using h2

theorem corners_all (lo hi : V3) (p : V3) : p ∈ [![lo 0, lo 1, lo 2], ![hi 0, lo 1, lo 2], ![lo 0, hi 1, lo 2], ![hi 0, hi 1, lo 2],
    ![lo 0, lo 1, hi 2], ![hi 0, lo 1, hi 2], ![lo 0, hi 1, hi 2], ![hi 0, hi 1, hi 2]] ↔ ∀ j, p j = lo j ∨ p j = hi j := by
  constructor
  · intro hp
    simp only [List.mem_cons, List.not_mem_nil, or_false] at hp
    rcases hp with rfl | rfl | rfl | rfl | rfl | rfl | rfl | rfl <;> intro j <;> fin_cases j <;> simp
  · intro hp
    have e : p = ![p 0, p 1, p 2] := by funext j; fin_cases j <;> rfl
    rw [e]
    rcases hp 0 with h0 | h0 <;> rcases hp 1 with h1 | h1 <;> rcases hp 2 with h2 | h2 <;> rw [h0, h1, h2] <;> simp

/-- A transformed box is the smallest one around the transformed points of the box (as long as they do not leave the range of the
numbers); a box without points stays as it is. -/
theorem C121_transform (b : BBox) (R : Matrix (Fin 3) (Fin 3) ℝ) (t : V3) :
    (b.values = none → b.transform R t = b) ∧
    ∀ lo hi, b.Has lo hi → (∀ j, lo j ≤ hi j) → (∀ x, Between lo hi x → ∀ j, |(R *ᵥ x + t) j| ≤ fltMax) →
      ∃ lo' hi', (b.transform R t).Has lo' hi' ∧ (∀ x, Between lo hi x → Between lo' hi' (R *ᵥ x + t)) ∧
        ∀ j, (∃ x, Between lo hi x ∧ (R *ᵥ x + t) j = lo' j) ∧ ∃ x, Between lo hi x ∧ (R *ᵥ x + t) j = hi' j := by
  refine ⟨fun h => by unfold BBox.transform; rw [h], fun lo hi hb hle hmax => ?_⟩
  unfold BBox.transform
  rw [values_of_has hb]
  dsimp only
  refine ⟨_, _, ⟨rfl, rfl⟩, ?_, ?_⟩
  all_goals
    have hc : ∀ c : V3, (∀ j, c j = lo j ∨ c j = hi j) → Between lo hi c := by
      intro c hc j
      rcases hc j with e | e <;> rw [e]
      · exact ⟨le_refl _, hle j⟩
      · exact ⟨hle j, le_refl _⟩
  · intro x hx j
    have hlow := (foldl_low 0 j (List.map (fun x => R *ᵥ x + t) [![lo 0, lo 1, lo 2], ![hi 0, lo 1, lo 2], ![lo 0, hi 1, lo 2],
      ![hi 0, hi 1, lo 2], ![lo 0, lo 1, hi 2], ![hi 0, lo 1, hi 2], ![lo 0, hi 1, hi 2], ![hi 0, hi 1, hi 2]]) (fun _ => fltMax)).2.2
    have hhigh := (foldl_high 0 j (List.map (fun x => R *ᵥ x + t) [![lo 0, lo 1, lo 2], ![hi 0, lo 1, lo 2], ![lo 0, hi 1, lo 2],
      ![hi 0, hi 1, lo 2], ![lo 0, lo 1, hi 2], ![hi 0, lo 1, hi 2], ![lo 0, hi 1, hi 2], ![hi 0, hi 1, hi 2]]) (fun _ => -fltMax)).2.2
    obtain ⟨⟨c, hc1, hc2⟩, c', hc1', hc2'⟩ := row_between lo hi x (R j) hx
    have e1 := hlow _ (List.mem_map.2 ⟨c, (corners_all lo hi c).2 hc1, rfl⟩)
    have e2 := hhigh _ (List.mem_map.2 ⟨c', (corners_all lo hi c').2 hc1', rfl⟩)
    have f1 : (R *ᵥ c + t) j ≤ (R *ᵥ x + t) j := by simp only [Pi.add_apply, Matrix.mulVec]; linarith
    have f2 : (R *ᵥ x + t) j ≤ (R *ᵥ c' + t) j := by simp only [Pi.add_apply, Matrix.mulVec]; linarith
    exact ⟨e1.trans f1, f2.trans e2⟩
  · intro j
    have hlow := foldl_low 0 j (List.map (fun x => R *ᵥ x + t) [![lo 0, lo 1, lo 2], ![hi 0, lo 1, lo 2], ![lo 0, hi 1, lo 2],
      ![hi 0, hi 1, lo 2], ![lo 0, lo 1, hi 2], ![hi 0, lo 1, hi 2], ![lo 0, hi 1, hi 2], ![hi 0, hi 1, hi 2]]) (fun _ => fltMax)
    have hhigh := foldl_high 0 j (List.map (fun x => R *ᵥ x + t) [![lo 0, lo 1, lo 2], ![hi 0, lo 1, lo 2], ![lo 0, hi 1, lo 2],
      ![hi 0, hi 1, lo 2], ![lo 0, lo 1, hi 2], ![hi 0, lo 1, hi 2], ![lo 0, hi 1, hi 2], ![hi 0, hi 1, hi 2]]) (fun _ => -fltMax)
    have hlom : lo ∈ [![lo 0, lo 1, lo 2], ![hi 0, lo 1, lo 2], ![lo 0, hi 1, lo 2],
      ![hi 0, hi 1, lo 2], ![lo 0, lo 1, hi 2], ![hi 0, lo 1, hi 2], ![lo 0, hi 1, hi 2], ![hi 0, hi 1, hi 2]] :=
        (corners_all lo hi lo).2 fun _ => .inl rfl
    have hlb := hc lo fun _ => .inl rfl
    have habs := abs_le.1 (hmax lo hlb j)
    constructor
    · rcases hlow.1 with e | ⟨x, hx, e⟩
      · refine ⟨lo, hlb, ?_⟩
        have := hlow.2.2 _ (List.mem_map.2 ⟨lo, hlom, rfl⟩)
        exact le_antisymm (by rw [e]; exact habs.2) this
      · obtain ⟨c, hc', rfl⟩ := List.mem_map.1 hx
        exact ⟨c, hc c ((corners_all lo hi c).1 hc'), e⟩
    · rcases hhigh.1 with e | ⟨x, hx, e⟩
      · refine ⟨lo, hlb, ?_⟩
        have := hhigh.2.2 _ (List.mem_map.2 ⟨lo, hlom, rfl⟩)
        exact le_antisymm this (by rw [e]; exact habs.1)
      · obtain ⟨c, hc', rfl⟩ := List.mem_map.1 hx
        exact ⟨c, hc c ((corners_all lo hi c).1 hc'), e⟩

/-- A scaled box is the smallest one around the scaled points. Missing: negative factors, for which it is false
(`C121_scale_false`). -/
theorem C121_scale_partial (b : BBox) (ps : List V3) (h : b.Around (ps.map real)) (f : V3) (hf : ∀ j, 0 ≤ f j) :
    (b.scale f).Around ((ps.map fun p j => p j * f j).map real) := by
  by_cases hp : ps = []
  · subst hp
    have h0 := h 0
    have : b.values = none := by
      unfold BBox.values
      rcases h0 with ⟨-, h1, -⟩ | ⟨a, b, -, -, h, -⟩
      · rw [h1]
      · simp [coords] at h
    unfold BBox.scale
    rw [this]
    simpa using h
  · obtain ⟨lo, hi, h1, h2, h3⟩ := around_has h hp
    have hs : (b.scale f).Has (fun j => lo j * f j) (fun j => hi j * f j) := by
      unfold BBox.scale
      rw [values_of_has h1]
      exact ⟨rfl, rfl⟩
    refine has_around hs ?_ ?_
    · intro q hq j
      obtain ⟨p, hp, rfl⟩ := List.mem_map.1 hq
      exact ⟨mul_le_mul_of_nonneg_right (h2 p hp j).1 (hf j), mul_le_mul_of_nonneg_right (h2 p hp j).2 (hf j)⟩
    · intro j
      obtain ⟨p, hp, e⟩ := (h3 j).1
      obtain ⟨q, hq, e'⟩ := (h3 j).2
      exact ⟨⟨_, List.mem_map.2 ⟨p, hp, rfl⟩, by rw [e]⟩, ⟨_, List.mem_map.2 ⟨q, hq, rfl⟩, by rw [e']⟩⟩

/-- With a negative factor minimum and maximum are exchanged: the "minimum" is above the "maximum". -/
theorem C121_scale_false : ∃ (b : BBox) (ps : List V3) (f : V3) (lo hi : V3), b.Around (ps.map real) ∧ (b.scale f).Has lo hi ∧ hi 0 < lo 0 ∧
    ¬ (b.scale f).Around ((ps.map fun p j => p j * f j).map real) := by
  have hb : (⟨real ![0, 0, 0], real ![1, 1, 1]⟩ : BBox).Around ([![0, 0, 0], ![1, 1, 1]].map real) := by
    refine has_around ⟨rfl, rfl⟩ ?_ ?_
    · intro p hp j
      simp only [List.mem_cons, List.not_mem_nil, or_false] at hp
      rcases hp with rfl | rfl <;> fin_cases j <;> norm_num
    · intro j
      exact ⟨⟨_, by simp, rfl⟩, ⟨![1, 1, 1], by simp, rfl⟩⟩
  have hs : ((⟨real ![0, 0, 0], real ![1, 1, 1]⟩ : BBox).scale (fun _ => -1)).Has (fun j => ![0, 0, 0] j * -1) (fun j => ![1, 1, 1] j * -1) := by
    unfold BBox.scale
    rw [values_of_has ⟨rfl, rfl⟩]
    exact ⟨rfl, rfl⟩
  refine ⟨_, _, fun _ => -1, _, _, hb, hs, by norm_num, fun h => ?_⟩
  obtain ⟨lo, hi, h1, h2, -⟩ := around_has h (by simp)
  have hm : ![(1 : ℝ), 1, 1] ∈ [![(0 : ℝ), 0, 0], ![1, 1, 1]] := by simp
  have h3 := (h2 _ (List.mem_map.2 ⟨_, hm, rfl⟩) 0).1
  have e : real lo = real (fun j => ![(0 : ℝ), 0, 0] j * -1) := by rw [← h1.1, hs.1]
  have e' := congrFun e 0
  simp only [real, Option.some.injEq] at e'
  rw [e'] at h3
  norm_num at h3

theorem isBetween_iff {x a b : ℝ} : isBetween x a b = true ↔ (a ≤ x ∧ x ≤ b) ∨ (b ≤ x ∧ x ≤ a) := by
  unfold isBetween
  by_cases h : a ≤ b
  · rw [if_pos h, decide_eq_true_iff]
    constructor
    · exact .inl
    · rintro (h1 | h1)
      · exact h1
      · exact ⟨by linarith, by linarith⟩
  · rw [if_neg h, decide_eq_true_iff]
    constructor
    · exact .inr
    · rintro (h1 | h1)
      · linarith
      · exact h1

/-- A point is inside exactly if it is between the bounds in all directions in which it is not NaN. Missing: flat boxes, for
which it is false (`C121_inside_false`). A box without points contains none. -/
theorem C121_inside_partial (b : BBox) (p : Fin 3 → Fl) :
    (b.values = none → b.isInside p = false) ∧
    ∀ lo hi, b.Has lo hi → (∀ j, lo j < hi j) → (b.isInside p = true ↔ ∀ j x, p j = some x → lo j ≤ x ∧ x ≤ hi j) := by
  refine ⟨fun h => by unfold BBox.isInside; rw [h], fun lo hi hb hlt => ?_⟩
  unfold BBox.isInside
  rw [values_of_has hb]
  dsimp only
  have one : ∀ (l h x : ℝ), l < h → (((l - h) * l ≤ (l - h) * x ∧ (l - h) * x ≤ (l - h) * h) ∨ ((l - h) * h ≤ (l - h) * x ∧ (l - h) * x ≤ (l - h) * l) ↔
      l ≤ x ∧ x ≤ h) := by
    intro l h x hlt
    have hn : l - h < 0 := by linarith
    rw [mul_le_mul_left_of_neg hn, mul_le_mul_left_of_neg hn, mul_le_mul_left_of_neg hn, mul_le_mul_left_of_neg hn]
    constructor
    · rintro (h1 | h1)
      · exact ⟨by linarith, by linarith⟩
      · exact ⟨h1.2, h1.1⟩
    · rintro ⟨h1, h2⟩; exact .inr ⟨h2, h1⟩
  have hx : ∀ j, (lo j ≤ (p j).getD ((hi j + lo j) / 2) ∧ (p j).getD ((hi j + lo j) / 2) ≤ hi j ↔ ∀ x, p j = some x → lo j ≤ x ∧ x ≤ hi j) := by
    intro j
    rcases p j with _ | y
    · simp only [Option.getD_none, reduceCtorEq, false_imp_iff, implies_true, iff_true]
      have := hlt j
      constructor <;> linarith
    · simp
  simp only [Bool.and_eq_true, isBetween_iff]
  simp only [dotProduct, Fin.sum_univ_three, Pi.sub_apply, Matrix.cons_val_zero, Matrix.cons_val_one, Matrix.cons_val_two,
    Matrix.head_cons, Matrix.tail_cons, sub_self, zero_mul, zero_add, add_zero]
  rw [one _ _ _ (hlt 2), one _ _ _ (hlt 1), one _ _ _ (hlt 0), hx 2, hx 1, hx 0]
  constructor
  · rintro ⟨⟨h2, h1⟩, h0⟩ j
    fin_cases j
    · exact h0
    · exact h1
    · exact h2
  · intro h
    exact ⟨⟨h 2, h 1⟩, h 0⟩

/-- In a direction in which the box is flat every point is inside. -/
theorem C121_inside_false : ∃ (b : BBox) (ps : List V3) (x : V3), b.Around (ps.map real) ∧ b.isInside (real x) = true ∧
    ∀ p ∈ ps, p 2 = 0 ∧ x 2 = 1000 := by
  have hb : (⟨real ![0, 0, 0], real ![1, 1, 0]⟩ : BBox).Around ([![0, 0, 0], ![1, 1, 0]].map real) := by
    refine has_around ⟨rfl, rfl⟩ ?_ ?_
    · intro p hp j
      simp only [List.mem_cons, List.not_mem_nil, or_false] at hp
      rcases hp with rfl | rfl <;> fin_cases j <;> norm_num
    · intro j
      exact ⟨⟨_, by simp, rfl⟩, ⟨![1, 1, 0], by simp, rfl⟩⟩
  refine ⟨_, _, ![1 / 2, 1 / 2, 1000], hb, ?_, ?_⟩
  · unfold BBox.isInside
    rw [values_of_has ⟨rfl, rfl⟩]
    dsimp only
    simp only [Bool.and_eq_true, isBetween_iff]
    simp [dotProduct, Fin.sum_univ_three, real]
    norm_num
  · intro p hp
    simp only [List.mem_cons, List.not_mem_nil, or_false] at hp
    rcases hp with rfl | rfl <;> exact ⟨rfl, rfl⟩

/-- A plane goes through a box exactly if there are points of the box on both sides. -/
theorem C121_plane (b : BBox) (p : Rot.Plane) (lo hi : V3) (h : b.Has lo hi) (hle : ∀ j, lo j ≤ hi j) :
    ∃ r, b.planeGoesThrough p = some r ∧ (r = true ↔ (∃ x, Between lo hi x ∧ 0 ≤ (x - p.p) ⬝ᵥ p.n) ∧ ∃ x, Between lo hi x ∧ (x - p.p) ⬝ᵥ p.n < 0) := by
  have hl := (C121_corners b lo hi h).1
  have hc : ∀ c : V3, (∀ j, c j = lo j ∨ c j = hi j) → Between lo hi c := by
    intro c hc j
    rcases hc j with e | e <;> rw [e]
    · exact ⟨le_refl _, hle j⟩
    · exact ⟨hle j, le_refl _⟩
  unfold BBox.planeGoesThrough
  rw [if_neg (by omega)]
  refine ⟨_, rfl, ?_⟩
  have ht : b.getPoints.take 8 = b.getPoints := List.take_of_length_le (by omega)
  rw [ht]
  have e : ∀ l r : Bool, ((if !l || !r then false else true) = true ↔ l = true ∧ r = true) := by decide
  rw [e, List.any_eq_true, List.any_eq_true]
  have hcomm : ∀ x : V3, (x - p.p) ⬝ᵥ p.n = p.n ⬝ᵥ x - p.p ⬝ᵥ p.n := by
    intro x
    rw [sub_dotProduct, dotProduct_comm x]
  constructor
  · rintro ⟨⟨x, hx, h1⟩, y, hy, h2⟩
    refine ⟨⟨x, hc x ((mem_getPoints h x).1 hx), ?_⟩, ⟨y, hc y ((mem_getPoints h y).1 hy), ?_⟩⟩
    · simpa [Mth.onNormalPointingSide] using h1
    · simpa [Mth.onNormalPointingSide] using h2
  · rintro ⟨⟨x, hx, h1⟩, y, hy, h2⟩
    obtain ⟨-, c, c1, c2⟩ := row_between lo hi x p.n hx
    obtain ⟨⟨d, d1, d2⟩, -⟩ := row_between lo hi y p.n hy
    refine ⟨⟨c, (mem_getPoints h c).2 c1, ?_⟩, ⟨d, (mem_getPoints h d).2 d1, ?_⟩⟩
    · rw [hcomm] at h1
      simp only [Mth.onNormalPointingSide, hcomm, decide_eq_true_eq]
      linarith
    · rw [hcomm] at h2
      simp only [Mth.onNormalPointingSide, hcomm, Bool.not_eq_true', decide_eq_false_iff_not, not_le]
      linarith

/-- For a box without points memory that does not belong to it is read. -/
theorem C121_plane_empty_false (p : Rot.Plane) : BBox.clear.planeGoesThrough p = none := by
  unfold BBox.planeGoesThrough
  rw [if_pos (by simp [BBox.getPoints, BBox.values, BBox.clear])]

end Simox.Msh
