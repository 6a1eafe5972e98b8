import Verif.Mc.CellProps
import Mathlib.Algebra.BigOperators.Intervals
import Mathlib.Algebra.BigOperators.Ring.Finset
import Mathlib.Data.Int.Interval

/-!
# Marching cubes: sums over the sides of the triangles of many cells
-/

namespace Simox.Mc

set_option linter.unusedSectionVars false

variable {K : Type} [Field K] [LinearOrder K] [IsStrictOrderedRing K]

/-- A weight that changes its sign with the direction. -/
def Anti {P : Type} (w : P → P → Int) : Prop := ∀ p q, w q p = -w p q

/-! ## Faces -/

/-- Side p of a face joins corners on different sides. -/
def cross4 (b0 b1 b2 b3 : Bool) : Nat → Bool
  | 0 => b0 != b1
  | 1 => b1 != b2
  | 2 => b2 != b3
  | _ => b3 != b0

theorem segs_cross : ∀ b0 b1 b2 b3 : Bool, ∀ s ∈ segs b0 b1 b2 b3,
    s.1 < 4 ∧ s.2 < 4 ∧ cross4 b0 b1 b2 b3 s.1 = true ∧ cross4 b0 b1 b2 b3 s.2 = true := by
  decide

theorem segs_same (b : Bool) : segs b b b b = [] := by cases b <;> rfl

theorem wsum_congr {P : Type} {w : P → P → Int} {u u' : Nat → P} {b0 b1 b2 b3 : Bool}
    (h : ∀ p < 4, cross4 b0 b1 b2 b3 p = true → u p = u' p) :
    wsum (fun p q => w (u p) (u q)) (segs b0 b1 b2 b3) = wsum (fun p q => w (u' p) (u' q)) (segs b0 b1 b2 b3) := by
  simp only [wsum]
  congr 1
  apply List.map_congr_left
  intro s hs
  obtain ⟨h1, h2, h3, h4⟩ := segs_cross b0 b1 b2 b3 s hs
  rw [h s.1 h1 h3, h s.2 h2 h4]

/-- The sums over the segments on the lower faces of a cell. -/
def fX (g : Index → K) (iso : K) (w : Pos K → Pos K → Int) (x y z : Int) : Int :=
  wsum (fun p q => w (edgePoint g iso x y z (sideXm p)) (edgePoint g iso x y z (sideXm q)))
    (segs (above g iso x y z 0) (above g iso x y z 3) (above g iso x y z 7) (above g iso x y z 4))
def fY (g : Index → K) (iso : K) (w : Pos K → Pos K → Int) (x y z : Int) : Int :=
  wsum (fun p q => w (edgePoint g iso x y z (sideYm p)) (edgePoint g iso x y z (sideYm q)))
    (segs (above g iso x y z 0) (above g iso x y z 1) (above g iso x y z 5) (above g iso x y z 4))
def fZ (g : Index → K) (iso : K) (w : Pos K → Pos K → Int) (x y z : Int) : Int :=
  wsum (fun p q => w (edgePoint g iso x y z (sideZm p)) (edgePoint g iso x y z (sideZm q)))
    (segs (above g iso x y z 0) (above g iso x y z 1) (above g iso x y z 2) (above g iso x y z 3))

/-- Values at the ends of an edge that are not both near the level. -/
def Clean (iso a b : K) : Prop :=
  (iso < a → b ≤ iso → 1 / 100000 ≤ a - iso ∨ 1 / 100000 ≤ iso - b) ∧
  (iso < b → a ≤ iso → 1 / 100000 ≤ b - iso ∨ 1 / 100000 ≤ iso - a)

theorem interp_symm {iso a b : K} (p q : Pos K) (hc : Clean iso a b) (h : decide (a > iso) ≠ decide (b > iso)) :
    vertexInterp iso p q a b = vertexInterp iso q p b a := by
  have key : ¬ (|iso - a| < 1 / 100000 ∧ |iso - b| < 1 / 100000) := by
    rintro ⟨h1, h2⟩
    rw [abs_lt] at h1 h2
    by_cases ha : a > iso
    · have hb : b ≤ iso := by
        by_contra hb; exact h (by simp [ha, not_le.1 hb])
      rcases hc.1 ha hb with h3 | h3 <;> linarith [h1.1, h2.2]
    · have hb : iso < b := by
        by_contra hb; exact h (by simp [ha, hb])
      rcases hc.2 hb (not_lt.1 ha) with h3 | h3 <;> linarith [h1.2, h2.1]
  have hab : |iso - a| < 1 / 100000 ∨ |iso - b| < 1 / 100000 ∨ a - b ≠ 0 := by
    by_cases h0 : a - b = 0
    · exfalso; apply h; rw [sub_eq_zero] at h0; rw [h0]
    · exact Or.inr (Or.inr h0)
  have hfar : ¬ |iso - a| < 1 / 100000 → ¬ |iso - b| < 1 / 100000 → ¬ |a - b| < 1 / 100000 := by
    intro h1 h2 h3
    apply h1
    rw [abs_lt] at h3 ⊢
    by_cases ha : a > iso
    · have hb : b ≤ iso := by
        by_contra hb; exact h (by simp [ha, not_le.1 hb])
      constructor <;> linarith [h3.1, h3.2]
    · have hb : iso < b := by
        by_contra hb; exact h (by simp [ha, hb])
      have ha := not_lt.1 ha
      constructor <;> linarith [h3.1, h3.2]
  simp only [vertexInterp]
  by_cases h1 : |iso - a| < 1 / 100000
  · have h2 : ¬ |iso - b| < 1 / 100000 := fun h2 => key ⟨h1, h2⟩
    rw [if_pos h1, if_neg h2, if_pos h1]
  · by_cases h2 : |iso - b| < 1 / 100000
    · rw [if_neg h1, if_pos h2, if_pos h2]
    · have h3 := hfar h1 h2
      have h3' : ¬ |b - a| < 1 / 100000 := by rwa [abs_sub_comm]
      rw [if_neg h1, if_neg h2, if_neg h3, if_neg h2, if_neg h1, if_neg h3']
      have h0 : a - b ≠ 0 := by
        intro h0; apply h; rw [sub_eq_zero] at h0; rw [h0]
      have h0' : b - a ≠ 0 := by
        intro h; apply h0; linarith
      have hmu : (iso - b) / (a - b) = 1 - (iso - a) / (b - a) := by
        rw [eq_sub_iff_add_eq, ← neg_sub b a, div_neg, ← sub_eq_neg_add, ← sub_div, div_eq_one_iff_eq h0']; ring
      rw [hmu]
      ext <;> ring

theorem cleans {g : Index → K} {iso : K} {size : Int} (h : NoTies g iso size) {p q : Index} (hp : InRange (size + 1) p)
    (hq : InRange (size + 1) q) (hn : Neighbour p q) : Clean iso (g p) (g q) :=
  ⟨h p q hp hq hn, h q p hq hp (neighbour_symm hn)⟩

theorem fXp_eq {g : Index → K} {iso : K} {size : Int} (h : NoTies g iso size) (w : Pos K → Pos K → Int) {x y z : Int}
    (hr : InRange size (x, y, z)) :
    wsum (fun p q => w (edgePoint g iso x y z (sideXp p)) (edgePoint g iso x y z (sideXp q)))
      (segs (above g iso x y z 1) (above g iso x y z 2) (above g iso x y z 6) (above g iso x y z 5)) =
    fX g iso w (x + 1) y z := by
  obtain ⟨h1, h2, h3, h4, h5, h6⟩ := hr
  simp only at h1 h2 h3 h4 h5 h6
  apply wsum_congr
  intro p hp hc
  interval_cases p
  · simp only [sideXp, sideXm, edgePoint, edgeEnds, getPos, getVal]
    rw [interp_symm]
    · push_cast; rfl
    · exact cleans h ⟨by simp only; omega, by simp only; omega, by simp only; omega, by simp only; omega, by simp only; omega, by simp only; omega⟩
        ⟨by simp only; omega, by simp only; omega, by simp only; omega, by simp only; omega, by simp only; omega, by simp only; omega⟩ (by simp [Neighbour])
    · simpa [cross4, above, getVal] using hc
  · simp only [sideXp, sideXm, edgePoint, edgeEnds, getPos, getVal]
    push_cast; rfl
  · simp only [sideXp, sideXm, edgePoint, edgeEnds, getPos, getVal]
    rw [interp_symm]
    · push_cast; rfl
    · exact cleans h ⟨by simp only; omega, by simp only; omega, by simp only; omega, by simp only; omega, by simp only; omega, by simp only; omega⟩
        ⟨by simp only; omega, by simp only; omega, by simp only; omega, by simp only; omega, by simp only; omega, by simp only; omega⟩ (by simp [Neighbour])
    · have := hc
      simp only [cross4, above, getVal, bne_iff_ne, ne_eq] at this
      exact fun he => this he.symm
  · simp only [sideXp, sideXm, edgePoint, edgeEnds, getPos, getVal]
    push_cast; rfl

theorem fYp_eq {g : Index → K} {iso : K} {size : Int} (h : NoTies g iso size) (w : Pos K → Pos K → Int) {x y z : Int}
    (hr : InRange size (x, y, z)) :
    wsum (fun p q => w (edgePoint g iso x y z (sideYp p)) (edgePoint g iso x y z (sideYp q)))
      (segs (above g iso x y z 3) (above g iso x y z 2) (above g iso x y z 6) (above g iso x y z 7)) =
    fY g iso w x (y + 1) z := by
  obtain ⟨h1, h2, h3, h4, h5, h6⟩ := hr
  simp only at h1 h2 h3 h4 h5 h6
  apply wsum_congr
  intro p hp hc
  interval_cases p
  · simp only [sideYp, sideYm, edgePoint, edgeEnds, getPos, getVal]
    rw [interp_symm]
    · push_cast; rfl
    · exact cleans h ⟨by simp only; omega, by simp only; omega, by simp only; omega, by simp only; omega, by simp only; omega, by simp only; omega⟩
        ⟨by simp only; omega, by simp only; omega, by simp only; omega, by simp only; omega, by simp only; omega, by simp only; omega⟩ (by simp [Neighbour])
    · have := hc
      simp only [cross4, above, getVal, bne_iff_ne, ne_eq] at this
      exact fun he => this he.symm
  · simp only [sideYp, sideYm, edgePoint, edgeEnds, getPos, getVal]
    push_cast; rfl
  · simp only [sideYp, sideYm, edgePoint, edgeEnds, getPos, getVal]
    rw [interp_symm]
    · push_cast; rfl
    · exact cleans h ⟨by simp only; omega, by simp only; omega, by simp only; omega, by simp only; omega, by simp only; omega, by simp only; omega⟩
        ⟨by simp only; omega, by simp only; omega, by simp only; omega, by simp only; omega, by simp only; omega, by simp only; omega⟩ (by simp [Neighbour])
    · simpa [cross4, above, getVal] using hc
  · simp only [sideYp, sideYm, edgePoint, edgeEnds, getPos, getVal]
    push_cast; rfl

theorem fZp_eq (g : Index → K) (iso : K) (w : Pos K → Pos K → Int) (x y z : Int) :
    wsum (fun p q => w (edgePoint g iso x y z (sideZp p)) (edgePoint g iso x y z (sideZp q)))
      (segs (above g iso x y z 4) (above g iso x y z 5) (above g iso x y z 6) (above g iso x y z 7)) =
    fZ g iso w x y (z + 1) := by
  apply wsum_congr
  intro p hp hc
  interval_cases p <;> simp only [sideZp, sideZm, edgePoint, edgeEnds, getPos, getVal] <;> push_cast <;> rfl

/-! ## Cells -/

theorem wsum_flatMap_sides (w : Pos K → Pos K → Int) (v : Nat → Pos K) (l : List (Nat × Nat × Nat)) :
    wsum w (meshSides (l.map fun t => (⟨v t.1, v t.2.1, v t.2.2⟩ : Tri K))) =
      wsum (fun p q => w (v p) (v q)) (l.flatMap triSides) := by
  induction l with
  | nil => rfl
  | cons t l ih =>
    simp only [meshSides, List.map_cons, List.flatMap_cons] at ih ⊢
    rw [wsum_append, wsum_append, ih]
    rfl

/-- The sum over the sides of the triangles of a cell is the sum over its faces. -/
theorem cellSum {g : Index → K} {iso : K} {size : Int} (h : NoTies g iso size) {w : Pos K → Pos K → Int} (hw : Anti w)
    {x y z : Int} (hr : InRange size (x, y, z)) :
    wsum w (meshSides (cellTris g iso x y z)) =
      (fX g iso w x y z - fX g iso w (x + 1) y z) - (fY g iso w x y z - fY g iso w x (y + 1) z) +
      (fZ g iso w x y z - fZ g iso w x y (z + 1)) := by
  have hc := wsum_cancels (w := fun p q => w (edgePoint g iso x y z p) (edgePoint g iso x y z q))
    (fun p q => hw _ _) 64 _ (cellFacts g iso x y z).cancel
  rw [wsum_append, wsum_relabelSwap hw] at hc
  simp only [id] at hc
  have hc' := add_neg_eq_zero.1 hc
  rw [cellTris, wsum_flatMap_sides, hc']
  simp only [faceSegs, wsum_append, wsum_relabel (w := w) (edgePoint g iso x y z),
    wsum_relabelSwap hw (edgePoint g iso x y z)]
  rw [fXp_eq h w hr, fYp_eq h w hr, fZp_eq]
  simp only [fX, fY, fZ]
  ring

/-! ## Telescoping -/

theorem tele (n : Nat) (s F : Nat → Int) (h0 : F 0 = 0) (hn : F n = 0)
    (h : ∀ x, x + 1 < n → F (x + 1) ≠ 0 → s x = s (x + 1)) : ∑ x ∈ Finset.range n, s x * (F x - F (x + 1)) = 0 := by
  have key : ∀ m, m + 1 ≤ n → ∑ x ∈ Finset.range (m + 1), s x * (F x - F (x + 1)) = -(s m * F (m + 1)) := by
    intro m
    induction m with
    | zero => intro _; simp [h0]
    | succ m ih =>
      intro hm
      rw [Finset.sum_range_succ, ih (by omega)]
      by_cases hz : F (m + 1) = 0
      · rw [hz]; ring
      · rw [h m (by omega) hz]; ring
  cases n with
  | zero => simp
  | succ m => rw [key m (le_refl _), hn, mul_zero, neg_zero]

theorem sum_Ico_cast (n : Nat) (f : Int → Int) : ∑ x ∈ Finset.Ico (0 : Int) n, f x = ∑ x ∈ Finset.range n, f x := by
  symm
  apply Finset.sum_bij (fun (x : Nat) _ => (x : Int))
  · intro a ha; simp only [Finset.mem_range] at ha; simp [ha]
  · intro a _ b _ hab; exact_mod_cast hab
  · intro b hb
    simp only [Finset.mem_Ico] at hb
    exact ⟨b.toNat, by simp only [Finset.mem_range]; omega, by omega⟩
  · intro a _; rfl

/-- The cells of the grid. -/
def grid (n : Nat) : Finset Index := Finset.Ico (0 : Int) n ×ˢ (Finset.Ico (0 : Int) n ×ˢ Finset.Ico (0 : Int) n)

theorem mem_grid (n : Nat) (c : Index) : c ∈ grid n ↔ InRange n c := by
  simp only [grid, Finset.mem_product, Finset.mem_Ico, InRange]
  tauto

theorem sum_grid (n : Nat) (f : Index → Int) : ∑ c ∈ grid n, f c =
    ∑ x ∈ Finset.range n, ∑ y ∈ Finset.range n, ∑ z ∈ Finset.range n, f ((x : Int), (y : Int), (z : Int)) := by
  simp only [grid, Finset.sum_product, sum_Ico_cast]

/-- The sum over the sides of the triangles of the cells in `C`, if neighbouring cells with a segment on their common
face are both in `C` or both not, and if the sums over the faces on the boundary vanish. -/
theorem meshSum {g : Index → K} {iso : K} {n : Nat} (h : NoTies g iso n) {w : Pos K → Pos K → Int} (hw : Anti w)
    (C : List Index) (hnd : C.Nodup) (hC : ∀ c ∈ C, InRange n c)
    (bx : ∀ y z : Nat, y < n → z < n → fX g iso w 0 y z = 0 ∧ fX g iso w n y z = 0)
    (by' : ∀ x z : Nat, x < n → z < n → fY g iso w x 0 z = 0 ∧ fY g iso w x n z = 0)
    (bz : ∀ x y : Nat, x < n → y < n → fZ g iso w x y 0 = 0 ∧ fZ g iso w x y n = 0)
    (sx : ∀ x y z : Nat, x + 1 < n → y < n → z < n → fX g iso w (x + 1) y z ≠ 0 →
      (((x : Int), (y : Int), (z : Int)) ∈ C ↔ (((x : Int) + 1), (y : Int), (z : Int)) ∈ C))
    (sy : ∀ x y z : Nat, x < n → y + 1 < n → z < n → fY g iso w x (y + 1) z ≠ 0 →
      (((x : Int), (y : Int), (z : Int)) ∈ C ↔ ((x : Int), ((y : Int) + 1), (z : Int)) ∈ C))
    (sz : ∀ x y z : Nat, x < n → y < n → z + 1 < n → fZ g iso w x y (z + 1) ≠ 0 →
      (((x : Int), (y : Int), (z : Int)) ∈ C ↔ ((x : Int), (y : Int), ((z : Int) + 1)) ∈ C)) :
    wsum w (meshSides (C.flatMap fun c => cellTris g iso c.1 c.2.1 c.2.2)) = 0 := by
  classical
  have e1 : wsum w (meshSides (C.flatMap fun c => cellTris g iso c.1 c.2.1 c.2.2)) =
      (C.map fun c => wsum w (meshSides (cellTris g iso c.1 c.2.1 c.2.2))).sum := by
    clear hnd hC bx by' bz sx sy sz
    induction C with
    | nil => rfl
    | cons c C ih =>
      simp only [meshSides, List.flatMap_cons, List.flatMap_append, List.map_cons, List.sum_cons] at ih ⊢
      rw [wsum_append, ih]
  set s : Index → Int := fun c => if c ∈ C then 1 else 0 with hs
  have e2 : (C.map fun c => wsum w (meshSides (cellTris g iso c.1 c.2.1 c.2.2))).sum =
      ∑ c ∈ grid n, s c * wsum w (meshSides (cellTris g iso c.1 c.2.1 c.2.2)) := by
    rw [← List.sum_toFinset _ hnd]
    have hsub : C.toFinset ⊆ grid n := by
      intro c hc; rw [mem_grid]; exact hC c (List.mem_toFinset.1 hc)
    rw [← Finset.sum_subset hsub]
    · apply Finset.sum_congr rfl
      intro c hc; simp [hs, List.mem_toFinset.1 hc]
    · intro c _ hc
      have : c ∉ C := fun h' => hc (List.mem_toFinset.2 h')
      simp [hs, this]
  have e3 : ∑ c ∈ grid n, s c * wsum w (meshSides (cellTris g iso c.1 c.2.1 c.2.2)) =
      ∑ c ∈ grid n, (s c * (fX g iso w c.1 c.2.1 c.2.2 - fX g iso w (c.1 + 1) c.2.1 c.2.2) -
        s c * (fY g iso w c.1 c.2.1 c.2.2 - fY g iso w c.1 (c.2.1 + 1) c.2.2) +
        s c * (fZ g iso w c.1 c.2.1 c.2.2 - fZ g iso w c.1 c.2.1 (c.2.2 + 1))) := by
    apply Finset.sum_congr rfl
    intro c hc
    rw [cellSum h hw ((mem_grid n c).1 hc)]; ring
  rw [e1, e2, e3, Finset.sum_add_distrib, Finset.sum_sub_distrib, sum_grid, sum_grid, sum_grid]
  have hS : ∀ c d : Index, (c ∈ C ↔ d ∈ C) → s c = s d := by
    intro c d hcd; simp only [hs, hcd]
  have z1 : ∑ x ∈ Finset.range n, ∑ y ∈ Finset.range n, ∑ z ∈ Finset.range n, s ((x : Int), (y : Int), (z : Int)) *
      (fX g iso w x y z - fX g iso w (x + 1) y z) = 0 := by
    rw [Finset.sum_comm]
    apply Finset.sum_eq_zero; intro y hy
    rw [Finset.sum_comm]
    apply Finset.sum_eq_zero; intro z hz
    rw [Finset.mem_range] at hy hz
    have := tele n (fun x => s ((x : Int), (y : Int), (z : Int))) (fun x => fX g iso w x y z)
      (by simpa using (bx y z hy hz).1) (bx y z hy hz).2
      (fun x hx hne => by
        have := hS _ _ (sx x y z hx hy hz (by simpa using hne))
        simpa using this)
    simpa using this
  have z2 : ∑ x ∈ Finset.range n, ∑ y ∈ Finset.range n, ∑ z ∈ Finset.range n, s ((x : Int), (y : Int), (z : Int)) *
      (fY g iso w x y z - fY g iso w x (y + 1) z) = 0 := by
    apply Finset.sum_eq_zero; intro x hx
    rw [Finset.sum_comm]
    apply Finset.sum_eq_zero; intro z hz
    rw [Finset.mem_range] at hx hz
    have := tele n (fun y => s ((x : Int), (y : Int), (z : Int))) (fun y => fY g iso w x y z)
      (by simpa using (by' x z hx hz).1) (by' x z hx hz).2
      (fun y hy hne => by
        have := hS _ _ (sy x y z hx hy hz (by simpa using hne))
        simpa using this)
    simpa using this
  have z3 : ∑ x ∈ Finset.range n, ∑ y ∈ Finset.range n, ∑ z ∈ Finset.range n, s ((x : Int), (y : Int), (z : Int)) *
      (fZ g iso w x y z - fZ g iso w x y (z + 1)) = 0 := by
    apply Finset.sum_eq_zero; intro x hx
    apply Finset.sum_eq_zero; intro y hy
    rw [Finset.mem_range] at hx hy
    have := tele n (fun z => s ((x : Int), (y : Int), (z : Int))) (fun z => fZ g iso w x y z)
      (by simpa using (bz x y hx hy).1) (bz x y hx hy).2
      (fun z hz hne => by
        have := hS _ _ (sz x y z hx hy hz (by simpa using hne))
        simpa using this)
    simpa using this
  rw [z1, z2, z3]; rfl

end Simox.Mc
