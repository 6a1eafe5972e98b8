import Verif.Mc.CellLemmas
import Mathlib.Tactic.FieldSimp
import Mathlib.Algebra.Order.Field.Rat

/-!
# Marching cubes, one cell: properties
-/

namespace Simox.Mc

set_option linter.unusedSectionVars false

variable {K : Type} [Field K] [LinearOrder K] [IsStrictOrderedRing K]

theorem between_swap (p q : Pos K) (mu : K) : between p q mu = between q p (1 - mu) := by
  ext <;> simp only [between] <;> ring

theorem interp_spec {iso a b : K} (p q : Pos K) (h : iso < a ∧ b ≤ iso ∨ a ≤ iso ∧ iso < b) :
    ∃ mu, 0 ≤ mu ∧ mu ≤ 1 ∧ vertexInterp iso p q a b = between p q mu ∧ |a + mu * (b - a) - iso| < 1 / 100000 := by
  have he : (0 : K) < 1 / 100000 := by positivity
  rw [vertexInterp]
  by_cases h1 : |iso - a| < 1 / 100000
  · refine ⟨0, le_refl _, zero_le_one, ?_, ?_⟩
    · rw [if_pos h1]; simp [between]
    · rw [zero_mul, add_zero, abs_sub_comm]; exact h1
  · rw [if_neg h1]
    by_cases h2 : |iso - b| < 1 / 100000
    · refine ⟨1, zero_le_one, le_refl _, ?_, ?_⟩
      · rw [if_pos h2]; simp [between]
      · rw [one_mul, add_sub_cancel, abs_sub_comm]; exact h2
    · rw [if_neg h2]
      have h3 : ¬ |a - b| < 1 / 100000 := by
        intro h3
        apply h1
        rw [abs_lt] at h3 ⊢
        rcases h with ⟨k1, k2⟩ | ⟨k1, k2⟩ <;> constructor <;> linarith [h3.1, h3.2]
      rw [if_neg h3]
      have hne : b - a ≠ 0 := by
        intro h0
        apply h3
        rw [abs_sub_comm, h0, abs_zero]; exact he
      refine ⟨(iso - a) / (b - a), ?_, ?_, rfl, ?_⟩
      · rcases h with ⟨k1, k2⟩ | ⟨k1, k2⟩
        · exact div_nonneg_of_nonpos (by linarith) (by linarith)
        · exact div_nonneg (by linarith) (by linarith)
      · rcases h with ⟨k1, k2⟩ | ⟨k1, k2⟩
        · rw [div_le_one_of_neg (by linarith)]; linarith
        · rw [div_le_one (by linarith)]; linarith
      · rw [div_mul_cancel₀ _ hne]
        rw [show a + (iso - a) - iso = 0 by ring, abs_zero]; exact he

instance (p q : Index) : Decidable (Neighbour p q) := by unfold Neighbour; infer_instance

theorem cornerIdx_add (x y z : Int) {i : Nat} (hi : i < 8) :
    cornerIdx x y z i = (x + (cornerIdx 0 0 0 i).1, y + (cornerIdx 0 0 0 i).2.1, z + (cornerIdx 0 0 0 i).2.2) := by
  interval_cases i <;> simp [cornerIdx]

theorem edge_table : ∀ i < 8, ∀ j < 8, Neighbour (cornerIdx 0 0 0 i) (cornerIdx 0 0 0 j) →
    ∃ e < 12, edgeEnds e = (i, j) ∨ edgeEnds e = (j, i) := by
  decide

theorem edge_of_neighbours {x y z : Int} {i j : Nat} (hi : i < 8) (hj : j < 8)
    (h : Neighbour (cornerIdx x y z i) (cornerIdx x y z j)) : ∃ e < 12, edgeEnds e = (i, j) ∨ edgeEnds e = (j, i) := by
  apply edge_table i hi j hj
  rw [cornerIdx_add x y z hi, cornerIdx_add x y z hj] at h
  simp only [Neighbour] at h ⊢
  omega

theorem above_iff (g : Index → K) (iso : K) (x y z : Int) {i : Nat} (hi : i < 8) :
    above g iso x y z i = true ↔ iso < g (cornerIdx x y z i) := by
  rw [above, getVal_corner g x y z hi, decide_eq_true_eq]

theorem above_false_iff (g : Index → K) (iso : K) (x y z : Int) {i : Nat} (hi : i < 8) :
    above g iso x y z i = false ↔ g (cornerIdx x y z i) ≤ iso := by
  rw [above, getVal_corner g x y z hi, decide_eq_false_iff_not, gt_iff_lt, not_lt]

theorem crossing_cases {g : Index → K} {iso : K} {x y z : Int} {e : Nat} (h : crossing (above g iso x y z) e = true) :
    (iso < g (cornerIdx x y z (edgeEnds e).1) ∧ g (cornerIdx x y z (edgeEnds e).2) ≤ iso) ∨
    (g (cornerIdx x y z (edgeEnds e).1) ≤ iso ∧ iso < g (cornerIdx x y z (edgeEnds e).2)) := by
  obtain ⟨h1, h2⟩ := ends_lt e
  rw [← above_iff g iso x y z h1, ← above_iff g iso x y z h2, ← above_false_iff g iso x y z h1,
    ← above_false_iff g iso x y z h2]
  simp only [crossing, bne_iff_ne, ne_eq] at h
  cases h3 : above g iso x y z (edgeEnds e).1 <;> cases h4 : above g iso x y z (edgeEnds e).2 <;> simp_all

theorem edgePoint_spec {g : Index → K} {iso : K} {x y z : Int} {e : Nat} (h : crossing (above g iso x y z) e = true) :
    ∃ mu, 0 ≤ mu ∧ mu ≤ 1 ∧ edgePoint g iso x y z e =
      between (toPos (cornerIdx x y z (edgeEnds e).1)) (toPos (cornerIdx x y z (edgeEnds e).2)) mu ∧
      |g (cornerIdx x y z (edgeEnds e).1) + mu * (g (cornerIdx x y z (edgeEnds e).2) - g (cornerIdx x y z (edgeEnds e).1)) -
        iso| < 1 / 100000 := by
  obtain ⟨h1, h2⟩ := ends_lt e
  rw [edgePoint, getVal_corner g x y z h1, getVal_corner g x y z h2, getPos_corner x y z h1, getPos_corner x y z h2]
  exact interp_spec _ _ (crossing_cases h)


theorem neighbour_symm {p q : Index} (h : Neighbour p q) : Neighbour q p := by
  simp only [Neighbour] at h ⊢; omega

/-- `Polygonise`: it never reads a vertex it has not set and makes at most five triangles, and none exactly if all
corners of the cell are on the same side. Every corner of a triangle is on an edge of the cell between corners on
different sides, at a point where the linear interpolation of the values is within 1e-5 of the level. Every such edge
of the cell has a corner of a triangle. -/
theorem C85_cell (g : Index → K) (iso : K) (x y z : Int) :
    ∃ ts, polygonise g iso x y z = some ts ∧ ts.length ≤ 5 ∧ (ts ≠ [] ↔ HasSurface g iso (x, y, z)) ∧
      (∀ t ∈ ts, ∀ v ∈ t.corners, ∃ p q mu, IsCorner (x, y, z) p ∧ IsCorner (x, y, z) q ∧ Neighbour p q ∧ iso < g p ∧
        g q ≤ iso ∧ 0 ≤ mu ∧ mu ≤ 1 ∧ v = between (toPos p) (toPos q) mu ∧ |g p + mu * (g q - g p) - iso| < 1 / 100000) ∧
      (∀ p q, IsCorner (x, y, z) p → IsCorner (x, y, z) q → Neighbour p q → iso < g p → g q ≤ iso →
        ∃ t ∈ ts, ∃ v ∈ t.corners, ∃ mu, 0 ≤ mu ∧ mu ≤ 1 ∧ v = between (toPos p) (toPos q) mu ∧
          |g p + mu * (g q - g p) - iso| < 1 / 100000) := by
  have hf := cellFacts g iso x y z
  refine ⟨cellTris g iso x y z, hf.poly, by simpa [cellTris] using hf.five, ?_, ?_, ?_⟩
  · rw [hasSurface_iff]; simp [cellTris]
  · intro t ht v hv
    simp only [cellTris, List.mem_map] at ht
    obtain ⟨n, hn, rfl⟩ := ht
    obtain ⟨e, he, rfl⟩ : ∃ e ∈ [n.1, n.2.1, n.2.2], v = edgePoint g iso x y z e := by
      simp only [Tri.corners, List.mem_cons, List.not_mem_nil, or_false] at hv
      rcases hv with rfl | rfl | rfl
      · exact ⟨_, by simp, rfl⟩
      · exact ⟨_, by simp, rfl⟩
      · exact ⟨_, by simp, rfl⟩
    have hc := (hf.used n hn e he).2
    obtain ⟨mu, m1, m2, m3, m4⟩ := edgePoint_spec hc
    rcases crossing_cases hc with ⟨k1, k2⟩ | ⟨k1, k2⟩
    · exact ⟨_, _, mu, isCorner_idx x y z _, isCorner_idx x y z _, edge_neighbour x y z e, k1, k2, m1, m2, m3, m4⟩
    · refine ⟨_, _, 1 - mu, isCorner_idx x y z _, isCorner_idx x y z _, neighbour_symm (edge_neighbour x y z e), k2, k1,
        by linarith, by linarith, by rw [m3, between_swap], ?_⟩
      convert m4 using 2
      ring
  · intro p q hp hq hn h1 h2
    obtain ⟨i, hi, rfl⟩ := corner_idx_of hp
    obtain ⟨j, hj, rfl⟩ := corner_idx_of hq
    obtain ⟨e, he, hij⟩ := edge_of_neighbours hi hj hn
    have b1 := (above_iff g iso x y z hi).2 h1
    have b2 := (above_false_iff g iso x y z hj).2 h2
    have hc : crossing (above g iso x y z) e = true := by
      rcases hij with h | h <;> simp [crossing, h, b1, b2]
    obtain ⟨n, hn', hmem⟩ := hf.all e he hc
    obtain ⟨mu, m1, m2, m3, m4⟩ := edgePoint_spec hc
    refine ⟨⟨edgePoint g iso x y z n.1, edgePoint g iso x y z n.2.1, edgePoint g iso x y z n.2.2⟩,
      List.mem_map.2 ⟨n, hn', rfl⟩, edgePoint g iso x y z e, ?_, ?_⟩
    · simp only [List.mem_cons, List.not_mem_nil, or_false] at hmem
      rcases hmem with rfl | rfl | rfl <;> simp [Tri.corners]
    · rcases hij with h | h
      · rw [h] at m3 m4
        exact ⟨mu, m1, m2, m3, m4⟩
      · rw [h] at m3 m4
        refine ⟨1 - mu, by linarith, by linarith, by rw [m3, between_swap], ?_⟩
        convert m4 using 2
        ring

/-- A concrete cell: one corner above the level, one triangle. -/
example : polygonise (fun c => if c = (0, 0, 0) then (1 : ℚ) else -1) 0 0 0 0 =
    some [⟨(1 / 2, 0, 0), (0, 0, 1 / 2), (0, 1 / 2, 0)⟩] := by decide +kernel

end Simox.Mc
