import Verif.Mc.TableLemmas
import Verif.Mc.Spec

/-!
# Marching cubes: cells
-/

namespace Simox.Mc

set_option linter.unusedSectionVars false

variable {K : Type} [Field K] [LinearOrder K]

/-! ## Sums over sides -/

/-- The sum of a weight over pairs. -/
def wsum {P : Type} (w : P → P → Int) (l : List (P × P)) : Int := (l.map fun x => w x.1 x.2).sum

theorem wsum_nil {P : Type} (w : P → P → Int) : wsum w [] = 0 := rfl

theorem wsum_append {P : Type} (w : P → P → Int) (l m : List (P × P)) : wsum w (l ++ m) = wsum w l + wsum w m := by
  simp [wsum]

theorem wsum_cons {P : Type} (w : P → P → Int) (x : P × P) (l : List (P × P)) : wsum w (x :: l) = w x.1 x.2 + wsum w l := by
  simp [wsum]

theorem wsum_cancels {w : Nat → Nat → Int} (hw : ∀ p q, w q p = -w p q) : ∀ (n : Nat) (l : List (Nat × Nat)),
    cancels n l = true → wsum w l = 0
  | _, [], _ => rfl
  | 0, (_, _) :: _, h => by simp [cancels] at h
  | n + 1, (p, q) :: l, h => by
    simp only [cancels, Bool.and_eq_true, List.contains_iff_mem] at h
    have ih := wsum_cancels hw n _ h.2
    have hp := List.perm_cons_erase h.1
    have : wsum w l = w q p + wsum w (l.erase (q, p)) := by
      rw [wsum, (hp.map _).sum_eq]; simp [wsum]
    rw [wsum_cons, this, ih, hw p q]
    ring

theorem wsum_relabel {P : Type} {w : P → P → Int} (u : Nat → P) (f : Nat → Nat) (s : List (Nat × Nat)) :
    wsum (fun p q => w (u p) (u q)) (relabel f s) = wsum (fun p q => w (u (f p)) (u (f q))) s := by
  simp [wsum, relabel, List.map_map, Function.comp_def]

theorem wsum_relabelSwap {P : Type} {w : P → P → Int} (hw : ∀ p q, w q p = -w p q) (u : Nat → P) (f : Nat → Nat)
    (s : List (Nat × Nat)) :
    wsum (fun p q => w (u p) (u q)) (relabelSwap f s) = -wsum (fun p q => w (u (f p)) (u (f q))) s := by
  induction s with
  | nil => rfl
  | cons x l ih =>
    have e : relabelSwap f (x :: l) = (f x.2, f x.1) :: relabelSwap f l := rfl
    rw [e, wsum_cons, wsum_cons, ih, hw (u (f x.1)) (u (f x.2))]
    ring

/-! ## The triangles of a cell -/

theorem triLoop_eq {vl : Nat → Option (Pos K)} {v : Nat → Pos K} {cr : Nat → Bool}
    (h : ∀ e, cr e = true → vl e = some (v e)) : ∀ row : List Int, okRow cr row = true →
    triLoop vl row = some ((tris row).map fun t => ⟨v t.1, v t.2.1, v t.2.2⟩)
  | a :: b :: c :: rest, hr => by
    by_cases ha : a = -1
    · simp [triLoop, tris, ha]
    · simp only [okRow, if_neg ha, Bool.and_eq_true] at hr
      obtain ⟨⟨⟨h1, h2⟩, h3⟩, h4⟩ := hr
      simp only [triLoop, tris, if_neg ha, h _ h1, h _ h2, h _ h3, triLoop_eq h rest h4]
      rfl
  | [a], hr => by
    simp only [okRow, beq_iff_eq] at hr
    simp [triLoop, tris, hr]
  | [a, b], hr => by
    simp only [okRow, beq_iff_eq] at hr
    simp [triLoop, tris, hr]
  | [], hr => by simp [okRow] at hr

theorem okRow_tris {cr : Nat → Bool} : ∀ row : List Int, okRow cr row = true →
    ∀ t ∈ tris row, cr t.1 = true ∧ cr t.2.1 = true ∧ cr t.2.2 = true
  | a :: b :: c :: rest, hr => by
    by_cases ha : a = -1
    · simp [tris, ha]
    · simp only [okRow, if_neg ha, Bool.and_eq_true] at hr
      obtain ⟨⟨⟨h1, h2⟩, h3⟩, h4⟩ := hr
      intro t ht
      simp only [tris, if_neg ha, List.mem_cons] at ht
      rcases ht with rfl | ht
      · exact ⟨h1, h2, h3⟩
      · exact okRow_tris rest h4 t ht
  | [a], _ => by simp [tris]
  | [a, b], _ => by simp [tris]
  | [], _ => by simp [tris]

/-- The row of a cell. -/
def cellRow (g : Index → K) (iso : K) (x y z : Int) : List Int := (triTable[cubeIndex g iso x y z]?).getD []

/-- The triangles of a cell. -/
def cellTris (g : Index → K) (iso : K) (x y z : Int) : List (Tri K) :=
  (tris (cellRow g iso x y z)).map fun t => ⟨edgePoint g iso x y z t.1, edgePoint g iso x y z t.2.1, edgePoint g iso x y z t.2.2⟩

/-- What the table says about a cell. -/
structure CellFacts (g : Index → K) (iso : K) (x y z : Int) : Prop where
  poly : polygonise g iso x y z = some (cellTris g iso x y z)
  used : ∀ t ∈ tris (cellRow g iso x y z), ∀ e ∈ [t.1, t.2.1, t.2.2], e < 12 ∧ crossing (above g iso x y z) e = true
  all : ∀ e < 12, crossing (above g iso x y z) e = true → ∃ t ∈ tris (cellRow g iso x y z), e ∈ [t.1, t.2.1, t.2.2]
  empty : tris (cellRow g iso x y z) = [] ↔ ∀ i < 8, above g iso x y z i = above g iso x y z 0
  five : (tris (cellRow g iso x y z)).length ≤ 5
  cancel : cancels 64 ((tris (cellRow g iso x y z)).flatMap triSides ++ relabelSwap id (faceSegs (above g iso x y z))) = true

theorem corner_above (g : Index → K) (iso : K) (x y z : Int) {i : Nat} (hi : i < 8) :
    corner (above g iso x y z 0) (above g iso x y z 1) (above g iso x y z 2) (above g iso x y z 3)
      (above g iso x y z 4) (above g iso x y z 5) (above g iso x y z 6) (above g iso x y z 7) i = above g iso x y z i := by
  interval_cases i <;> rfl

theorem ends_lt (e : Nat) : (edgeEnds e).1 < 8 ∧ (edgeEnds e).2 < 8 := by
  unfold edgeEnds; split <;> decide

theorem cellFacts (g : Index → K) (iso : K) (x y z : Int) : CellFacts g iso x y z := by
  have h := rowCheck_all (above g iso x y z 0) (above g iso x y z 1) (above g iso x y z 2) (above g iso x y z 3)
      (above g iso x y z 4) (above g iso x y z 5) (above g iso x y z 6) (above g iso x y z 7)
  have hcr : ∀ e, crossing (corner (above g iso x y z 0) (above g iso x y z 1) (above g iso x y z 2) (above g iso x y z 3)
      (above g iso x y z 4) (above g iso x y z 5) (above g iso x y z 6) (above g iso x y z 7)) e =
      crossing (above g iso x y z) e := by
    intro e
    simp only [crossing]
    rw [corner_above g iso x y z (ends_lt e).1, corner_above g iso x y z (ends_lt e).2]
  have hfs : faceSegs (corner (above g iso x y z 0) (above g iso x y z 1) (above g iso x y z 2) (above g iso x y z 3)
      (above g iso x y z 4) (above g iso x y z 5) (above g iso x y z 6) (above g iso x y z 7)) =
      faceSegs (above g iso x y z) := rfl
  unfold rowCheck at h
  simp only [hcr, hfs] at h
  have hci : cubeIndexOf (above g iso x y z 0) (above g iso x y z 1) (above g iso x y z 2) (above g iso x y z 3)
      (above g iso x y z 4) (above g iso x y z 5) (above g iso x y z 6) (above g iso x y z 7) = cubeIndex g iso x y z := rfl
  rw [hci] at h
  cases hm : edgeTable[cubeIndex g iso x y z]? with
  | none => rw [hm] at h; simp at h
  | some mask =>
    cases ht : triTable[cubeIndex g iso x y z]? with
    | none => rw [hm, ht] at h; simp at h
    | some row =>
      rw [hm, ht] at h
      have hrow : cellRow g iso x y z = row := by rw [cellRow, ht]; rfl
      simp only [Bool.and_eq_true, List.all_eq_true, List.mem_range, beq_iff_eq, decide_eq_true_eq] at h
      obtain ⟨⟨⟨⟨⟨⟨h1, h2⟩, h3⟩, h4⟩, h5⟩, h6⟩, h7⟩ := h
      have hmask : mask = 0 ↔ tris row = [] := by
        rw [← List.isEmpty_iff, ← h5, decide_eq_true_eq]
      refine ⟨?_, ?_, ?_, ?_, ?_, ?_⟩
      · rw [polygonise, hm, ht]
        simp only [cellTris, hrow]
        by_cases h0 : mask = 0
        · rw [if_pos h0, hmask.1 h0]; rfl
        · rw [if_neg h0]
          apply triLoop_eq _ row h1
          intro e he
          simp only [Bool.and_eq_true, decide_eq_true_eq] at he
          rw [vertlist, if_pos ⟨he.1.1, he.2⟩]
      · rw [hrow]
        intro t ht' e he
        obtain ⟨k1, k2, k3⟩ := okRow_tris row h1 t ht'
        simp only [Bool.and_eq_true, decide_eq_true_eq] at k1 k2 k3
        simp only [List.mem_cons, List.not_mem_nil, or_false] at he
        rcases he with rfl | rfl | rfl
        · exact k1.1
        · exact k2.1
        · exact k3.1
      · rw [hrow]
        intro e he hc
        have := h2 e he
        simp only [hc, Bool.not_true, Bool.false_or, List.any_eq_true] at this
        obtain ⟨t, ht', h'⟩ := this
        refine ⟨t, ht', ?_⟩
        simp only [Bool.or_eq_true, beq_iff_eq] at h'
        simp only [List.mem_cons, List.not_mem_nil, or_false]
        rcases h' with (h' | h') | h'
        · exact Or.inl h'.symm
        · exact Or.inr (Or.inl h'.symm)
        · exact Or.inr (Or.inr h'.symm)
      · rw [hrow, ← hmask, ← decide_eq_true_iff (p := mask = 0), h4]
        simp only [Bool.and_eq_true, beq_iff_eq]
        constructor
        · rintro ⟨⟨⟨⟨⟨⟨k1, k2⟩, k3⟩, k4⟩, k5⟩, k6⟩, k7⟩ i hi
          interval_cases i
          · rfl
          · exact k1.symm
          · exact k2.symm
          · exact k3.symm
          · exact k4.symm
          · exact k5.symm
          · exact k6.symm
          · exact k7.symm
        · intro k
          exact ⟨⟨⟨⟨⟨⟨(k 1 (by decide)).symm, (k 2 (by decide)).symm⟩, (k 3 (by decide)).symm⟩, (k 4 (by decide)).symm⟩,
            (k 5 (by decide)).symm⟩, (k 6 (by decide)).symm⟩, (k 7 (by decide)).symm⟩
      · rw [hrow]; exact h6
      · rw [hrow]; exact h7

/-- Corners of the cell as grid points. -/
def cornerIdx (x y z : Int) : Nat → Index
  | 0 => (x, y, z)
  | 1 => (x + 1, y, z)
  | 2 => (x + 1, y + 1, z)
  | 3 => (x, y + 1, z)
  | 4 => (x, y, z + 1)
  | 5 => (x + 1, y, z + 1)
  | 6 => (x + 1, y + 1, z + 1)
  | _ => (x, y + 1, z + 1)

theorem getVal_corner (g : Index → K) (x y z : Int) {i : Nat} (hi : i < 8) : getVal g x y z i = g (cornerIdx x y z i) := by
  interval_cases i <;> rfl

theorem getPos_corner (x y z : Int) {i : Nat} (hi : i < 8) : (getPos x y z i : Pos K) = toPos (cornerIdx x y z i) := by
  interval_cases i <;> simp [getPos, toPos, cornerIdx]

theorem isCorner_idx (x y z : Int) (i : Nat) : IsCorner (x, y, z) (cornerIdx x y z i) := by
  unfold cornerIdx; split <;> simp [IsCorner]

theorem corner_idx_of {x y z : Int} {p : Index} (h : IsCorner (x, y, z) p) : ∃ i < 8, cornerIdx x y z i = p := by
  obtain ⟨a, b, c⟩ := p
  obtain ⟨h1, h2, h3⟩ := h
  simp only at h1 h2 h3
  rcases h1 with rfl | rfl <;> rcases h2 with rfl | rfl <;> rcases h3 with rfl | rfl
  · exact ⟨0, by decide, rfl⟩
  · exact ⟨4, by decide, rfl⟩
  · exact ⟨3, by decide, rfl⟩
  · exact ⟨7, by decide, rfl⟩
  · exact ⟨1, by decide, rfl⟩
  · exact ⟨5, by decide, rfl⟩
  · exact ⟨2, by decide, rfl⟩
  · exact ⟨6, by decide, rfl⟩

theorem edge_neighbour (x y z : Int) (e : Nat) :
    Neighbour (cornerIdx x y z (edgeEnds e).1) (cornerIdx x y z (edgeEnds e).2) := by
  unfold edgeEnds; split <;> simp [cornerIdx, Neighbour]

theorem hasSurface_iff (g : Index → K) (iso : K) (x y z : Int) :
    HasSurface g iso (x, y, z) ↔ tris (cellRow g iso x y z) ≠ [] := by
  rw [Ne, (cellFacts g iso x y z).empty]
  have hab : ∀ i < 8, above g iso x y z i = decide (iso < g (cornerIdx x y z i)) := by
    intro i hi; rw [above, getVal_corner g x y z hi]
  constructor
  · rintro ⟨p, q, hp, hq, h1, h2⟩ hall
    obtain ⟨i, hi, rfl⟩ := corner_idx_of hp
    obtain ⟨j, hj, rfl⟩ := corner_idx_of hq
    have := (hall i hi).trans (hall j hj).symm
    rw [hab i hi, hab j hj] at this
    simp only [decide_eq_decide] at this
    exact absurd (this.1 h1) (not_lt.2 h2)
  · intro h
    push Not at h
    obtain ⟨i, hi, hne⟩ := h
    rw [hab i hi, hab 0 (by decide)] at hne
    by_cases h0 : iso < g (cornerIdx x y z 0)
    · refine ⟨_, _, isCorner_idx x y z 0, isCorner_idx x y z i, h0, ?_⟩
      by_contra hc
      exact hne (by simp [h0, not_le.1 hc])
    · refine ⟨_, _, isCorner_idx x y z i, isCorner_idx x y z 0, ?_, not_lt.1 h0⟩
      by_contra hc
      exact hne (by simp [h0, hc])

end Simox.Mc
