import Verif.Msh.BoxMesh
import Verif.Msh.MeshProps
import Verif.Mth.VecProps
import Verif.Rot.DirLemmas
import Mathlib.Tactic.FieldSimp
import Mathlib.Tactic.Linarith
import Mathlib.LinearAlgebra.Matrix.ToLinearEquiv

/-!
# C126: meshes of boxes, measures
-/

namespace Simox.Msh

open Matrix Jac Rot

variable {C : Type}

/-! ## Specification -/

/-- A point of the surface of the box with the given pose and size. -/
def OnBox (R : M3) (p : V3) (size : V3) (q : V3) : Prop :=
  ∃ x : V3, q = R *ᵥ x + p ∧ (∀ k, |x k| ≤ size k / 2) ∧ ∃ k, |x k| = size k / 2

/-- A point of a triangle. -/
def InTriangle (t : V3 × V3 × V3) (q : V3) : Prop := ∃ a b c : ℝ, 0 ≤ a ∧ 0 ≤ b ∧ 0 ≤ c ∧ a + b + c = 1 ∧ q = a • t.1 + b • t.2.1 + c • t.2.2

/-- A corner of the triangle with the given number. -/
def cornerOf (ts : List (V3 × V3 × V3)) (i : ℕ) (c : Fin 3) : Option V3 := (ts[i]?).map fun t => ![t.1, t.2.1, t.2.2] c

/-! ## The triangles of a box -/

theorem raw_unit : ∀ i < 12, ∀ j k, rawCorner i j k = 1 ∨ rawCorner i j k = -1 := by decide +kernel

theorem raw_flat : ∀ i < 12, ∃ k, rawCorner i 0 k = rawCorner i 1 k ∧ rawCorner i 1 k = rawCorner i 2 k := by decide +kernel

theorem boxCorner_eq (R : M3) (p : V3) (w h d : ℝ) (i : ℕ) (j : Fin 3) :
    boxCorner R p w h d i j = R *ᵥ (fun k => (rawCorner i j k : ℝ) * ((![w, h, d] : V3) k / 2)) + p := by
  unfold boxCorner
  congr 2
  funext k
  fin_cases k <;> rfl

theorem unit_surface (y : V3) (hy : ∀ k, |y k| ≤ 1) (hk : ∃ k, |y k| = 1) : ∃ i < 12, ∃ a b c : ℝ, 0 ≤ a ∧ 0 ≤ b ∧ 0 ≤ c ∧ a + b + c = 1 ∧
    ∀ k, y k = a * rawCorner i 0 k + b * rawCorner i 1 k + c * rawCorner i 2 k := by
  have h0 := abs_le.1 (hy 0)
  have h1 := abs_le.1 (hy 1)
  have h2 := abs_le.1 (hy 2)
  obtain ⟨h0l, h0u⟩ := h0
  obtain ⟨h1l, h1u⟩ := h1
  obtain ⟨h2l, h2u⟩ := h2
  obtain ⟨k, hk⟩ := hk
  rw [abs_eq (by norm_num)] at hk
  have hk : (y 0 = 1 ∨ y 0 = -1) ∨ (y 1 = 1 ∨ y 1 = -1) ∨ (y 2 = 1 ∨ y 2 = -1) := by
    fin_cases k
    · exact .inl hk
    · exact .inr (.inl hk)
    · exact .inr (.inr hk)
  rcases hk with hk | hk | hk
  · rcases hk with hk | hk
    · -- coordinate 0, +1
      rcases le_total 0 ((0 : ℝ) + (1/2) * y 1 + (-1/2) * y 2) with hd | hd
      · have e : ∀ j k, rawCorner 7 j k = (![![1, 1, 1], ![1, -1, -1], ![1, 1, -1]] : Fin 3 → Fin 3 → ℤ) j k := by decide +kernel
        refine ⟨7, by omega, (1/2 : ℝ) + (0) * y 1 + (1/2) * y 2, (1/2 : ℝ) + (-1/2) * y 1 + (0) * y 2, (0 : ℝ) + (1/2) * y 1 + (-1/2) * y 2, by linarith, by linarith, by linarith, by ring, ?_⟩
        intro k
        rw [e, e, e]
        fin_cases k <;> simp <;> linarith
      · have e : ∀ j k, rawCorner 8 j k = (![![1, -1, -1], ![1, 1, 1], ![1, -1, 1]] : Fin 3 → Fin 3 → ℤ) j k := by decide +kernel
        refine ⟨8, by omega, (1/2 : ℝ) + (0) * y 1 + (-1/2) * y 2, (1/2 : ℝ) + (1/2) * y 1 + (0) * y 2, (0 : ℝ) + (-1/2) * y 1 + (1/2) * y 2, by linarith, by linarith, by linarith, by ring, ?_⟩
        intro k
        rw [e, e, e]
        fin_cases k <;> simp <;> linarith
    · -- coordinate 0, -1
      rcases le_total 0 ((0 : ℝ) + (-1/2) * y 1 + (1/2) * y 2) with hd | hd
      · have e : ∀ j k, rawCorner 0 j k = (![![-1, -1, -1], ![-1, -1, 1], ![-1, 1, 1]] : Fin 3 → Fin 3 → ℤ) j k := by decide +kernel
        refine ⟨0, by omega, (1/2 : ℝ) + (0) * y 1 + (-1/2) * y 2, (0 : ℝ) + (-1/2) * y 1 + (1/2) * y 2, (1/2 : ℝ) + (1/2) * y 1 + (0) * y 2, by linarith, by linarith, by linarith, by ring, ?_⟩
        intro k
        rw [e, e, e]
        fin_cases k <;> simp <;> linarith
      · have e : ∀ j k, rawCorner 4 j k = (![![-1, -1, -1], ![-1, 1, 1], ![-1, 1, -1]] : Fin 3 → Fin 3 → ℤ) j k := by decide +kernel
        refine ⟨4, by omega, (1/2 : ℝ) + (-1/2) * y 1 + (0) * y 2, (1/2 : ℝ) + (0) * y 1 + (1/2) * y 2, (0 : ℝ) + (1/2) * y 1 + (-1/2) * y 2, by linarith, by linarith, by linarith, by ring, ?_⟩
        intro k
        rw [e, e, e]
        fin_cases k <;> simp <;> linarith
  · rcases hk with hk | hk
    · -- coordinate 1, +1
      rcases le_total 0 ((0 : ℝ) + (1/2) * y 0 + (-1/2) * y 2) with hd | hd
      · have e : ∀ j k, rawCorner 9 j k = (![![1, 1, 1], ![1, 1, -1], ![-1, 1, -1]] : Fin 3 → Fin 3 → ℤ) j k := by decide +kernel
        refine ⟨9, by omega, (1/2 : ℝ) + (0) * y 0 + (1/2) * y 2, (0 : ℝ) + (1/2) * y 0 + (-1/2) * y 2, (1/2 : ℝ) + (-1/2) * y 0 + (0) * y 2, by linarith, by linarith, by linarith, by ring, ?_⟩
        intro k
        rw [e, e, e]
        fin_cases k <;> simp <;> linarith
      · have e : ∀ j k, rawCorner 10 j k = (![![1, 1, 1], ![-1, 1, -1], ![-1, 1, 1]] : Fin 3 → Fin 3 → ℤ) j k := by decide +kernel
        refine ⟨10, by omega, (1/2 : ℝ) + (1/2) * y 0 + (0) * y 2, (1/2 : ℝ) + (0) * y 0 + (-1/2) * y 2, (0 : ℝ) + (-1/2) * y 0 + (1/2) * y 2, by linarith, by linarith, by linarith, by ring, ?_⟩
        intro k
        rw [e, e, e]
        fin_cases k <;> simp <;> linarith
    · -- coordinate 1, -1
      rcases le_total 0 ((0 : ℝ) + (1/2) * y 0 + (-1/2) * y 2) with hd | hd
      · have e : ∀ j k, rawCorner 2 j k = (![![1, -1, 1], ![-1, -1, -1], ![1, -1, -1]] : Fin 3 → Fin 3 → ℤ) j k := by decide +kernel
        refine ⟨2, by omega, (1/2 : ℝ) + (0) * y 0 + (1/2) * y 2, (1/2 : ℝ) + (-1/2) * y 0 + (0) * y 2, (0 : ℝ) + (1/2) * y 0 + (-1/2) * y 2, by linarith, by linarith, by linarith, by ring, ?_⟩
        intro k
        rw [e, e, e]
        fin_cases k <;> simp <;> linarith
      · have e : ∀ j k, rawCorner 5 j k = (![![1, -1, 1], ![-1, -1, 1], ![-1, -1, -1]] : Fin 3 → Fin 3 → ℤ) j k := by decide +kernel
        refine ⟨5, by omega, (1/2 : ℝ) + (1/2) * y 0 + (0) * y 2, (0 : ℝ) + (-1/2) * y 0 + (1/2) * y 2, (1/2 : ℝ) + (0) * y 0 + (-1/2) * y 2, by linarith, by linarith, by linarith, by ring, ?_⟩
        intro k
        rw [e, e, e]
        fin_cases k <;> simp <;> linarith
  · rcases hk with hk | hk
    · -- coordinate 2, +1
      rcases le_total 0 ((0 : ℝ) + (-1/2) * y 0 + (-1/2) * y 1) with hd | hd
      · have e : ∀ j k, rawCorner 6 j k = (![![-1, 1, 1], ![-1, -1, 1], ![1, -1, 1]] : Fin 3 → Fin 3 → ℤ) j k := by decide +kernel
        refine ⟨6, by omega, (1/2 : ℝ) + (0) * y 0 + (1/2) * y 1, (0 : ℝ) + (-1/2) * y 0 + (-1/2) * y 1, (1/2 : ℝ) + (1/2) * y 0 + (0) * y 1, by linarith, by linarith, by linarith, by ring, ?_⟩
        intro k
        rw [e, e, e]
        fin_cases k <;> simp <;> linarith
      · have e : ∀ j k, rawCorner 11 j k = (![![1, 1, 1], ![-1, 1, 1], ![1, -1, 1]] : Fin 3 → Fin 3 → ℤ) j k := by decide +kernel
        refine ⟨11, by omega, (0 : ℝ) + (1/2) * y 0 + (1/2) * y 1, (1/2 : ℝ) + (-1/2) * y 0 + (0) * y 1, (1/2 : ℝ) + (0) * y 0 + (-1/2) * y 1, by linarith, by linarith, by linarith, by ring, ?_⟩
        intro k
        rw [e, e, e]
        fin_cases k <;> simp <;> linarith
    · -- coordinate 2, -1
      rcases le_total 0 ((0 : ℝ) + (-1/2) * y 0 + (1/2) * y 1) with hd | hd
      · have e : ∀ j k, rawCorner 1 j k = (![![1, 1, -1], ![-1, -1, -1], ![-1, 1, -1]] : Fin 3 → Fin 3 → ℤ) j k := by decide +kernel
        refine ⟨1, by omega, (1/2 : ℝ) + (1/2) * y 0 + (0) * y 1, (1/2 : ℝ) + (0) * y 0 + (-1/2) * y 1, (0 : ℝ) + (-1/2) * y 0 + (1/2) * y 1, by linarith, by linarith, by linarith, by ring, ?_⟩
        intro k
        rw [e, e, e]
        fin_cases k <;> simp <;> linarith
      · have e : ∀ j k, rawCorner 3 j k = (![![1, 1, -1], ![1, -1, -1], ![-1, -1, -1]] : Fin 3 → Fin 3 → ℤ) j k := by decide +kernel
        refine ⟨3, by omega, (1/2 : ℝ) + (0) * y 0 + (1/2) * y 1, (0 : ℝ) + (1/2) * y 0 + (-1/2) * y 1, (1/2 : ℝ) + (-1/2) * y 0 + (0) * y 1, by linarith, by linarith, by linarith, by ring, ?_⟩
        intro k
        rw [e, e, e]
        fin_cases k <;> simp <;> linarith

/-- The triangles cover exactly the surface of the box. -/
theorem C126_box_surface (R : M3) (p : V3) (w h d : ℝ) (hw : 0 < w) (hh : 0 < h) (hd : 0 < d) (q : V3) :
    OnBox R p ![w, h, d] q ↔ ∃ t ∈ createBoxTriangles R p w h d, InTriangle t q := by
  have hs : ∀ k, 0 < (![w, h, d] : V3) k := by intro k; fin_cases k <;> assumption
  have lin : ∀ (i : ℕ) (a b c : ℝ), a + b + c = 1 → a • boxCorner R p w h d i 0 + b • boxCorner R p w h d i 1 + c • boxCorner R p w h d i 2 =
      R *ᵥ (fun k => (a * rawCorner i 0 k + b * rawCorner i 1 k + c * rawCorner i 2 k) * ((![w, h, d] : V3) k / 2)) + p := by
    intro i a b c habc
    rw [boxCorner_eq, boxCorner_eq, boxCorner_eq]
    have e : (fun k => (a * (rawCorner i 0 k : ℝ) + b * rawCorner i 1 k + c * rawCorner i 2 k) * ((![w, h, d] : V3) k / 2)) =
        a • (fun k => (rawCorner i 0 k : ℝ) * ((![w, h, d] : V3) k / 2)) + b • (fun k => (rawCorner i 1 k : ℝ) * ((![w, h, d] : V3) k / 2)) +
          c • (fun k => (rawCorner i 2 k : ℝ) * ((![w, h, d] : V3) k / 2)) := by
      funext k
      simp only [Pi.add_apply, Pi.smul_apply, smul_eq_mul]
      ring
    rw [e, mulVec_add, mulVec_add, mulVec_smul, mulVec_smul, mulVec_smul]
    have hp : p = (a + b + c) • p := by rw [habc, one_smul]
    conv_rhs => rw [hp]
    rw [smul_add, smul_add, smul_add, add_smul, add_smul]
    abel
  constructor
  · rintro ⟨x, rfl, hx, k, hk⟩
    obtain ⟨i, hi, a, b, c, ha, hb, hc, habc, hy⟩ := unit_surface (fun k => x k / ((![w, h, d] : V3) k / 2)) (by
      intro k
      have := hs k
      rw [abs_div, abs_of_pos (by linarith : 0 < (![w, h, d] : V3) k / 2), div_le_one (by linarith)]
      exact hx k) ⟨k, by
      have := hs k
      rw [abs_div, abs_of_pos (by linarith : 0 < (![w, h, d] : V3) k / 2), hk, div_self (by linarith)]⟩
    refine ⟨_, List.mem_map.2 ⟨i, List.mem_range.2 hi, rfl⟩, a, b, c, ha, hb, hc, habc, ?_⟩
    dsimp only
    rw [lin i a b c habc]
    congr 2
    funext k
    rw [← hy k]
    have := hs k
    field_simp
  · rintro ⟨t, ht, a, b, c, ha, hb, hc, habc, rfl⟩
    obtain ⟨i, hi, rfl⟩ := List.mem_map.1 ht
    have hi := List.mem_range.1 hi
    dsimp only
    rw [lin i a b c habc]
    have bound : ∀ k, |a * (rawCorner i 0 k : ℝ) + b * rawCorner i 1 k + c * rawCorner i 2 k| ≤ 1 := by
      intro k
      have cast : ∀ j, (rawCorner i j k : ℝ) = 1 ∨ (rawCorner i j k : ℝ) = -1 := by
        intro j
        rcases raw_unit i hi j k with h | h <;> rw [h] <;> simp
      rw [abs_le]
      rcases cast 0 with h0 | h0 <;> rcases cast 1 with h1 | h1 <;> rcases cast 2 with h2 | h2 <;> rw [h0, h1, h2] <;> constructor <;> linarith
    refine ⟨_, rfl, fun k => ?_, ?_⟩
    · have := hs k
      rw [abs_mul, abs_of_pos (by linarith : 0 < (![w, h, d] : V3) k / 2)]
      exact mul_le_of_le_one_left (by linarith) (bound k)
    · obtain ⟨k, h1, h2⟩ := raw_flat i hi
      refine ⟨k, ?_⟩
      have := hs k
      have e : a * (rawCorner i 0 k : ℝ) + b * rawCorner i 1 k + c * rawCorner i 2 k = rawCorner i 2 k := by
        rw [h1, h2]
        linear_combination (rawCorner i 2 k : ℝ) * habc
      rw [e, abs_mul, abs_of_pos (by linarith : 0 < (![w, h, d] : V3) k / 2)]
      rcases raw_unit i hi 2 k with h | h <;> rw [h] <;> simp

/-- The spat product. -/
noncomputable def spat (a b c : V3) : ℝ := crossProduct b c ⬝ᵥ a

theorem spat_expand (a b c : V3) : spat a b c = a 0 * (b 1 * c 2 - b 2 * c 1) + a 1 * (b 2 * c 0 - b 0 * c 2) + a 2 * (b 0 * c 1 - b 1 * c 0) := by
  simp [spat, cross_apply, dotProduct, Fin.sum_univ_three]
  ring

theorem spat_mul (R : M3) (a b c : V3) : spat (R *ᵥ a) (R *ᵥ b) (R *ᵥ c) = R.det * spat a b c := by
  simp only [spat_expand, mulVec, dotProduct, Fin.sum_univ_three, det_fin_three]
  ring

theorem raw_spat : ∀ i < 12, rawCorner i 0 0 * (rawCorner i 1 1 * rawCorner i 2 2 - rawCorner i 1 2 * rawCorner i 2 1) +
    rawCorner i 0 1 * (rawCorner i 1 2 * rawCorner i 2 0 - rawCorner i 1 0 * rawCorner i 2 2) +
    rawCorner i 0 2 * (rawCorner i 1 0 * rawCorner i 2 1 - rawCorner i 1 1 * rawCorner i 2 0) = 4 := by decide +kernel

theorem box_spat (R : M3) (p : V3) (w h d : ℝ) {i : ℕ} (hi : i < 12) :
    spat (boxCorner R p w h d i 0 - p) (boxCorner R p w h d i 1 - p) (boxCorner R p w h d i 2 - p) = R.det * (w * h * d / 2) := by
  rw [boxCorner_eq, boxCorner_eq, boxCorner_eq, add_sub_cancel_right, add_sub_cancel_right, add_sub_cancel_right, spat_mul, spat_expand]
  have e : ((rawCorner i 0 0 * (rawCorner i 1 1 * rawCorner i 2 2 - rawCorner i 1 2 * rawCorner i 2 1) +
    rawCorner i 0 1 * (rawCorner i 1 2 * rawCorner i 2 0 - rawCorner i 1 0 * rawCorner i 2 2) +
    rawCorner i 0 2 * (rawCorner i 1 0 * rawCorner i 2 1 - rawCorner i 1 1 * rawCorner i 2 0) : ℤ) : ℝ) = 4 := by rw [raw_spat i hi]; norm_num
  push_cast at e
  simp only [cons_val_zero, cons_val_one, cons_val_two, cons_val, tail_cons, head_cons]
  linear_combination (R.det * (w * h * d / 8)) * e

theorem shift_spat (a b c p : V3) : crossProduct (b - a) (c - a) ⬝ᵥ (a - p) = spat (a - p) (b - p) (c - p) := by
  rw [spat_expand]
  simp [cross_apply, dotProduct, Fin.sum_univ_three]
  ring

/-- There are twelve triangles, and seen from outside of the box the corners of each are counterclockwise, if the pose does not mirror
it: each triangle and the centre make a tetrahedron with the same positive volume, a twelfth of that of the box. -/
theorem C126_box_outward (R : M3) (p : V3) (w h d : ℝ) : (createBoxTriangles R p w h d).length = 12 ∧
    ∀ t ∈ createBoxTriangles R p w h d, crossProduct (t.2.1 - t.1) (t.2.2 - t.1) ⬝ᵥ (t.1 - p) / 6 = R.det * (w * h * d) / 12 := by
  refine ⟨by simp [createBoxTriangles], fun t ht => ?_⟩
  obtain ⟨i, hi, rfl⟩ := List.mem_map.1 ht
  dsimp only
  rw [shift_spat, box_spat R p w h d (List.mem_range.1 hi)]
  ring

theorem raw_sides : ∀ (i : Fin 12) (c : Fin 3), ∃ ic : Fin 12 × Fin 3, ((∀ k, rawCorner ic.1 ic.2 k = rawCorner i (c + 1) k) ∧ ∀ k, rawCorner ic.1 (ic.2 + 1) k = rawCorner i c k) ∧
    ∀ jd : Fin 12 × Fin 3, ((∀ k, rawCorner jd.1 jd.2 k = rawCorner i (c + 1) k) ∧ ∀ k, rawCorner jd.1 (jd.2 + 1) k = rawCorner i c k) → jd = ic := by decide +kernel

theorem cornerOf_box (R : M3) (p : V3) (w h d : ℝ) (i : Fin 12) (c : Fin 3) : cornerOf (createBoxTriangles R p w h d) i c = some (boxCorner R p w h d i c) := by
  unfold cornerOf createBoxTriangles
  rw [List.getElem?_map, List.getElem?_range i.2]
  simp only [Option.map_some, Option.some.injEq]
  fin_cases c <;> rfl

/-- The triangles close the surface: every side of a triangle is a side of exactly one other triangle, in the opposite direction. -/
theorem C126_box_closed (R : M3) (p : V3) (w h d : ℝ) (hR : R.det ≠ 0) (hw : w ≠ 0) (hh : h ≠ 0) (hd : d ≠ 0) (i : Fin 12) (c : Fin 3) :
    ∃! ic : Fin 12 × Fin 3, cornerOf (createBoxTriangles R p w h d) ic.1 ic.2 = cornerOf (createBoxTriangles R p w h d) i (c + 1) ∧
      cornerOf (createBoxTriangles R p w h d) ic.1 (ic.2 + 1) = cornerOf (createBoxTriangles R p w h d) i c := by
  have hs : ∀ k, (![w, h, d] : V3) k ≠ 0 := by intro k; fin_cases k <;> assumption
  have inj : ∀ (i : ℕ) (j : Fin 3) (i' : ℕ) (j' : Fin 3), boxCorner R p w h d i j = boxCorner R p w h d i' j' ↔ ∀ k, rawCorner i j k = rawCorner i' j' k := by
    intro i j i' j'
    rw [boxCorner_eq, boxCorner_eq]
    constructor
    · intro he k
      have h1 := add_right_cancel he
      have h2 := Matrix.eq_zero_of_mulVec_eq_zero hR (v := (fun k => (rawCorner i j k : ℝ) * ((![w, h, d] : V3) k / 2)) - fun k => (rawCorner i' j' k : ℝ) * ((![w, h, d] : V3) k / 2))
        (by rw [mulVec_sub, h1, sub_self])
      have h3 := congrFun h2 k
      simp only [Pi.sub_apply, Pi.zero_apply] at h3
      have h4 : ((rawCorner i j k : ℝ) - rawCorner i' j' k) * ((![w, h, d] : V3) k / 2) = 0 := by linear_combination h3
      rcases mul_eq_zero.1 h4 with h5 | h5
      · exact_mod_cast sub_eq_zero.1 h5
      · exact absurd (by linarith) (hs k)
    · intro he
      simp only [he]
  obtain ⟨ic, h1, h2⟩ := raw_sides i c
  simp only [cornerOf_box, Option.some.injEq, inj]
  exact ⟨ic, h1, h2⟩

/-! ## The meshes -/

theorem givenNormal_create (a b c : V3) : givenNormal (some (createNormal a b c)) a b c = some (createNormal a b c) := by
  unfold givenNormal
  dsimp only
  by_cases h : nrm (createNormal a b c) < 1e-10
  · rw [if_pos h]
  · rw [if_neg h]
    by_cases hc : 1e-10 ≤ nrm (crossProduct (b - a) (c - a))
    · have := (C122_normal a b c hc).1
      unfold Rot.normalize
      rw [this]
      simp
    · exfalso
      apply h
      unfold createNormal
      dsimp only
      rw [if_pos (not_le.1 hc)]
      exact not_le.1 hc

theorem addAll_spec : ∀ (l : List ((V3 × V3 × V3) × C)) (m : Mesh C), m.vertices.length + 3 * l.length ≤ 2 ^ 32 → m.colors.length + 3 * l.length ≤ 2 ^ 32 →
    m.Valid → m.Painted → m.Boxed →
    let m' := l.foldl (fun m tc => addBoxTriangle m tc.1 tc.2) m
    m'.triangles = m.triangles ++ l.map (fun tc => tri tc.1) ∧ m'.paint = m.paint ++ l.map (fun tc _ => some tc.2) ∧ m'.Valid ∧ m'.Painted ∧ m'.Boxed ∧
      m'.faces.map Face.normal = m.faces.map Face.normal ++ l.map fun tc => some (createNormal tc.1.1 tc.1.2.1 tc.1.2.2)
  | [], m, _, _, hv, hp, hb => by simp [hv, hp, hb]
  | tc :: l, m, r1, r2, hv, hp, hb => by
      simp only [List.length_cons] at r1 r2
      obtain ⟨⟨a, b, c⟩, col⟩ := tc
      have e : addBoxTriangle m (a, b, c) col = m.addTriangleWithFace (some a) (some b) (some c) (some (createNormal a b c)) col col col := rfl
      have ih := addAll_spec l (addBoxTriangle m (a, b, c) col) (by rw [e, addTriangle_vertices]; simp; omega) (by rw [e, addTriangle_colors]; simp; omega)
        (by rw [e]; exact addTriangle_valid m hv _ _ _ _ _ _ _ (by omega)) (by rw [e]; exact addTriangle_painted m hp _ _ _ _ _ _ _ (by omega))
        (by rw [e]; exact addTriangle_boxed m hb _ _ _ _ _ _ _)
      obtain ⟨i1, i2, i3, i4, i5, i6⟩ := ih
      rw [List.foldl_cons]
      dsimp only
      refine ⟨?_, ?_, i3, i4, i5, ?_⟩
      · rw [i1, e, addTriangle_triangles m hv _ _ _ _ _ _ _ (by omega)]
        simp
      · rw [i2, e, addTriangle_paint m hp _ _ _ _ _ _ _ (by omega)]
        have : (![some col, some col, some col] : Fin 3 → Option C) = fun _ => some col := by funext x; fin_cases x <;> rfl
        simp [this]
      · rw [i6, e, addTriangle_faces]
        simp [givenNormal_create]

theorem empty_boxed : (Mesh.empty : Mesh C).Boxed := by
  intro j
  exact .inl ⟨rfl, rfl, rfl⟩

theorem selected_eq (color : C) (colors : List C) (i : ℕ) : selectedColor color colors i = (colors[i]?).getD color := by
  unfold selectedColor
  by_cases h : i < colors.length
  · rw [if_pos h]
  · rw [if_neg h, List.getElem?_eq_none (by omega)]
    rfl

/-- The mesh of a box has the twelve triangles with their normals, triangle `i` in the colour with number `i`, or in the given colour
if there are fewer. -/
theorem C126_box_mesh (R : M3) (p : V3) (w h d : ℝ) (color : C) (colors : List C) :
    let m := createBox R p w h d color colors
    m.triangles = (createBoxTriangles R p w h d).map tri ∧ m.paint = (List.range 12).map (fun i _ => some ((colors[i]?).getD color)) ∧ m.Valid ∧ m.Painted ∧ m.Boxed ∧
      m.faces.map Face.normal = (createBoxTriangles R p w h d).map fun t => some (createNormal t.1 t.2.1 t.2.2) := by
  intro m
  have hl : (createBoxTriangles R p w h d).length = 12 := by simp [createBoxTriangles]
  have hm : m = ((createBoxTriangles R p w h d).zipIdx.map fun t => (t.1, selectedColor color colors t.2)).foldl (fun m tc => addBoxTriangle m tc.1 tc.2) Mesh.empty := by
    rw [List.foldl_map]; rfl
  have key := addAll_spec ((createBoxTriangles R p w h d).zipIdx.map fun t => (t.1, selectedColor color colors t.2)) Mesh.empty
    (by simp [hl, Mesh.empty]) (by simp [hl, Mesh.empty]) (by intro f hf; simp [Mesh.empty] at hf) (by intro f hf; simp [Mesh.empty] at hf) empty_boxed
  rw [← hm] at key
  obtain ⟨k1, k2, k3, k4, k5, k6⟩ := key
  refine ⟨?_, ?_, k3, k4, k5, ?_⟩
  · rw [k1]
    simp only [Mesh.triangles, Mesh.empty, List.map_nil, List.nil_append, List.map_map]
    conv_rhs => rw [← List.zipIdx_map_fst 0 (createBoxTriangles R p w h d), List.map_map]
    rfl
  · rw [k2]
    simp only [Mesh.paint, Mesh.empty, List.map_nil, List.nil_append, List.map_map]
    have : List.range 12 = (createBoxTriangles R p w h d).zipIdx.map Prod.snd := by
      rw [List.zipIdx_map_snd, hl, List.range_eq_range']
    rw [this, List.map_map]
    apply List.map_congr_left
    intro t _
    simp only [Function.comp, selected_eq]
  · rw [k6]
    simp only [Mesh.empty, List.map_nil, List.nil_append, List.map_map]
    conv_rhs => rw [← List.zipIdx_map_fst 0 (createBoxTriangles R p w h d), List.map_map]
    rfl

/-- A grid of boxes: box after box the twelve triangles of a box at that position in the given frame, all in the colour with the
number of the position, or the given colour if there are fewer. -/
theorem C126_grid (R : M3) (p : V3) (positions : List V3) (w h d : ℝ) (color : C) (colors : List C) (room : 36 * positions.length ≤ 2 ^ 32) :
    let m := createSparseBoxGrid R p positions w h d color colors
    m.triangles = positions.flatMap (fun pos => (createBoxTriangles R (R *ᵥ pos + p) w h d).map tri) ∧
      m.paint = (List.range positions.length).flatMap (fun i => List.replicate 12 fun _ => some ((colors[i]?).getD color)) ∧ m.Valid ∧ m.Painted ∧ m.Boxed := by
  intro m
  have hl : ∀ q, (createBoxTriangles R q w h d).length = 12 := by intro q; simp [createBoxTriangles]
  let l : List ((V3 × V3 × V3) × C) := positions.zipIdx.flatMap fun pos => (createBoxTriangles R (R *ᵥ pos.1 + p) w h d).map fun t => (t, selectedColor color colors pos.2)
  have hm : m = l.foldl (fun m tc => addBoxTriangle m tc.1 tc.2) Mesh.empty := by
    simp only [l, List.foldl_flatMap, List.foldl_map]
    rfl
  have hlen : l.length = 12 * positions.length := by
    have : ∀ ps : List (V3 × ℕ), (ps.flatMap fun pos => (createBoxTriangles R (R *ᵥ pos.1 + p) w h d).map fun t => (t, selectedColor color colors pos.2)).length = 12 * ps.length := by
      intro ps
      induction ps with
      | nil => rfl
      | cons q ps ih => rw [List.flatMap_cons, List.length_append, ih, List.length_map, hl, List.length_cons]; omega
    rw [this, List.length_zipIdx]
  have key := addAll_spec l Mesh.empty
    (by rw [hlen]; simp only [Mesh.empty, List.length_nil]; omega) (by rw [hlen]; simp only [Mesh.empty, List.length_nil]; omega)
    (by intro f hf; simp [Mesh.empty] at hf) (by intro f hf; simp [Mesh.empty] at hf) empty_boxed
  rw [← hm] at key
  obtain ⟨k1, k2, k3, k4, k5, -⟩ := key
  refine ⟨?_, ?_, k3, k4, k5⟩
  · rw [k1]
    simp only [l, Mesh.triangles, Mesh.empty, List.map_nil, List.nil_append, List.map_flatMap, List.map_map]
    conv_rhs => rw [← List.zipIdx_map_fst 0 positions, List.flatMap_map]
    rfl
  · rw [k2]
    have : List.range positions.length = positions.zipIdx.map Prod.snd := by
      rw [List.zipIdx_map_snd, List.range_eq_range']
    rw [this, List.flatMap_map]
    simp only [l, Mesh.paint, Mesh.empty, List.map_nil, List.nil_append, List.map_flatMap, List.map_map]
    congr 1
    funext pos
    rw [← selected_eq, ← hl (R *ᵥ pos.1 + p)]
    exact List.map_const' (l := createBoxTriangles R (R *ᵥ pos.1 + p) w h d) (b := fun _ => some (selectedColor color colors pos.2))

/-! ## Measures -/

/-- The areas are those of the triangles, face by face; a mesh with invalid faces throws. -/
theorem C126_areas (m : Mesh C) : (m.Valid → ∃ as, m.getFaceAreas = some as ∧ as.length = m.faces.length ∧
      ∀ (i : ℕ) (f : Face) (x : ℝ), m.faces[i]? = some f → as[i]? = some x → ∃ a b c, m.vertices[f.id 0]? = some a ∧ m.vertices[f.id 1]? = some b ∧ m.vertices[f.id 2]? = some c ∧
        x = nrm (crossProduct (b - a) (c - a)) / 2) ∧ (¬ m.Valid → m.getFaceAreas = none) := by
  have one : ∀ f : Face, (∀ c, f.id c < m.vertices.length) → ∃ a b c, m.vertices[f.id 0]? = some a ∧ m.vertices[f.id 1]? = some b ∧ m.vertices[f.id 2]? = some c ∧
      faceArea m.vertices f = some (nrm (crossProduct (b - a) (c - a)) / 2) := by
    intro f hf
    have e0 := List.getElem?_eq_getElem (hf 0)
    have e1 := List.getElem?_eq_getElem (hf 1)
    have e2 := List.getElem?_eq_getElem (hf 2)
    refine ⟨_, _, _, e0, e1, e2, ?_⟩
    unfold faceArea
    rw [e0, e1, e2]
    exact congrArg some (Mth.C78_area _ _ _).1
  have bad : ∀ f : Face, ¬ (∀ c, f.id c < m.vertices.length) → faceArea m.vertices f = none := by
    intro f hf
    push Not at hf
    obtain ⟨c, hc⟩ := hf
    have hn := List.getElem?_eq_none hc
    unfold faceArea
    fin_cases c
    · have hn : m.vertices[f.id 0]? = none := hn
      rw [hn]
    · have hn : m.vertices[f.id 1]? = none := hn
      rw [hn]
      rcases m.vertices[f.id 0]? with _ | _ <;> rfl
    · have hn : m.vertices[f.id 2]? = none := hn
      rw [hn]
      rcases m.vertices[f.id 0]? with _ | _ <;> rcases m.vertices[f.id 1]? with _ | _ <;> rfl
  unfold Mesh.getFaceAreas Mesh.Valid
  generalize m.faces = fs
  induction fs with
  | nil => exact ⟨fun _ => ⟨[], rfl, rfl, by simp⟩, fun h => absurd (by simp) h⟩
  | cons f fs ih =>
    obtain ⟨ih1, ih2⟩ := ih
    constructor
    · intro hv
      obtain ⟨as, h1, h2, h3⟩ := ih1 fun g hg => hv g (by simp [hg])
      obtain ⟨a, b, c, e0, e1, e2, ha⟩ := one f (hv f (by simp))
      refine ⟨_ :: as, by rw [List.mapM_cons, ha, h1]; rfl, by simp [h2], ?_⟩
      intro i g x hg hx
      rcases i with _ | i
      · cases hg
        cases hx
        exact ⟨_, _, _, e0, e1, e2, rfl⟩
      · exact h3 i g x (by simpa using hg) (by simpa using hx)
    · intro hv
      rw [List.mapM_cons]
      by_cases hf : ∀ c, f.id c < m.vertices.length
      · obtain ⟨a, b, c, -, -, -, ha⟩ := one f hf
        rw [ha, ih2 (fun h => hv (by
          intro g hg
          rcases List.mem_cons.1 hg with rfl | hg
          · exact hf
          · exact h g hg))]
        rfl
      · rw [bad f hf]
        rfl

/-- The centre is the mean of the vertices, and the origin for a mesh without vertices. -/
theorem C126_com (m : Mesh C) : (m.vertices.length : ℝ) • m.getCOM = m.vertices.sum ∧ (m.vertices = [] → m.getCOM = 0) := by
  have hs : ∀ (l : List V3) (a : V3), l.foldl (fun s v => s + v) a = a + l.sum := by
    intro l
    induction l with
    | nil => simp
    | cons v l ih => intro a; rw [List.foldl_cons, ih, List.sum_cons, add_assoc]
  unfold Mesh.getCOM
  dsimp only
  rw [hs, zero_add]
  constructor
  · by_cases h : m.vertices = []
    · rw [if_pos h, h]; simp
    · rw [if_neg h, smul_smul]
      have : (m.vertices.length : ℝ) ≠ 0 := by
        rw [Nat.cast_ne_zero]
        exact fun h' => h (List.eq_nil_of_length_eq_zero h')
      rw [mul_one_div_cancel this, one_smul]
  · intro h
    rw [if_pos h, h]
    rfl

/-- The size: no vertex is outside, and in every coordinate both bounds are attained by a vertex; `false` is returned for no vertices
only. -/
theorem C126_size (m : Mesh C) : (m.getSize = none ↔ m.vertices = []) ∧ ∀ lo hi, m.getSize = some (lo, hi) →
    (∀ v ∈ m.vertices, ∀ j, lo j ≤ v j ∧ v j ≤ hi j) ∧ ∀ j, (∃ v ∈ m.vertices, v j = lo j) ∧ ∃ v ∈ m.vertices, v j = hi j := by
  have key : ∀ (l pre : List V3) (s : V3 × V3), (∀ v ∈ pre, ∀ j, s.1 j ≤ v j ∧ v j ≤ s.2 j) → (∀ j, (∃ v ∈ pre, v j = s.1 j) ∧ ∃ v ∈ pre, v j = s.2 j) →
      let r := l.foldl (fun (s : V3 × V3) v => (fun j => if v j < s.1 j then v j else s.1 j, fun j => if v j > s.2 j then v j else s.2 j)) s
      (∀ v ∈ pre ++ l, ∀ j, r.1 j ≤ v j ∧ v j ≤ r.2 j) ∧ ∀ j, (∃ v ∈ pre ++ l, v j = r.1 j) ∧ ∃ v ∈ pre ++ l, v j = r.2 j := by
    intro l
    induction l with
    | nil => intro pre s h1 h2; simpa using ⟨h1, h2⟩
    | cons v l ih =>
      intro pre s h1 h2
      rw [List.foldl_cons, List.append_cons]
      apply ih
      · intro u hu j
        dsimp only
        rcases List.mem_append.1 hu with hu | hu
        · obtain ⟨a, b⟩ := h1 u hu j
          constructor <;> split <;> linarith
        · cases List.mem_singleton.1 hu
          constructor <;> split <;> linarith
      · intro j
        obtain ⟨⟨a, ha, ea⟩, b, hb, eb⟩ := h2 j
        dsimp only
        constructor
        · split
          · exact ⟨v, by simp, rfl⟩
          · exact ⟨a, by simp [ha], ea⟩
        · split
          · exact ⟨v, by simp, rfl⟩
          · exact ⟨b, by simp [hb], eb⟩
  unfold Mesh.getSize
  rcases hv : m.vertices with _ | ⟨v0, vs⟩
  · simp
  · refine ⟨by simp, fun lo hi h => ?_⟩
    simp only [Option.some.injEq] at h
    have := key (v0 :: vs) [v0] (v0, v0) (by simp) (by simp)
    rw [h] at this
    simp only [List.cons_append, List.nil_append] at this
    obtain ⟨k1, k2⟩ := this
    refine ⟨fun v hv => k1 v (by simp only [List.mem_cons] at hv ⊢; tauto), fun j => ?_⟩
    obtain ⟨⟨a, ha, ea⟩, b, hb, eb⟩ := k2 j
    exact ⟨⟨a, by simp only [List.mem_cons] at ha ⊢; tauto, ea⟩, b, by simp only [List.mem_cons] at hb ⊢; tauto, eb⟩

/-- A scaled mesh, and a scaled clone, has the triangles with scaled corners and is the same otherwise; if the factors are not
negative its bounding box is the right one. -/
theorem C126_scale (m : Mesh C) (f : V3) : (m.scale f).triangles = m.triangles.map (fun t c => (t c).map fun v j => v j * f j) ∧
    (m.scale f).colors = m.colors ∧ (m.scale f).normals = m.normals ∧ (m.scale f).faces = m.faces ∧ m.clone f = m.scale f ∧ m.clone 1 = m ∧
    ((∀ j, 0 ≤ f j) → m.Boxed → (m.scale f).Boxed) := by
  have ht : ∀ m' : Mesh C, m'.faces = m.faces → m'.vertices = m.vertices.map (fun v j => v j * f j) →
      m'.triangles = m.triangles.map (fun t c => (t c).map fun v j => v j * f j) := by
    intro m' h1 h2
    unfold Mesh.triangles
    rw [h1, h2, List.map_map]
    apply List.map_congr_left
    intro g _
    funext c
    simp
  have h1 : m.clone 1 = m := by
    unfold Mesh.clone Mesh.scale
    rw [if_pos ⟨rfl, rfl, rfl⟩]
  unfold Mesh.scale
  by_cases h : f 0 = 1 ∧ f 1 = 1 ∧ f 2 = 1
  · have hid : (fun (v : V3) j => v j * f j) = id := by
      funext v j
      obtain ⟨a, b, c⟩ := h
      fin_cases j
      · simp [a]
      · simp [b]
      · simp [c]
    rw [if_pos h]
    refine ⟨?_, rfl, rfl, rfl, ?_, h1, fun _ hb => hb⟩
    · exact ht m rfl (by rw [hid, List.map_id])
    · unfold Mesh.clone Mesh.scale
      rw [if_pos h]
  · rw [if_neg h]
    refine ⟨ht _ rfl rfl, rfl, rfl, rfl, ?_, h1, fun hf hb => ?_⟩
    · unfold Mesh.clone Mesh.scale
      rw [if_neg h]
    · exact C121_scale_partial m.boundingBox m.vertices hb f hf

/-! ## The hypotheses can be met -/

example : (1 : M3).det ≠ 0 ∧ (0 : ℝ) < 2 ∧ OnBox 1 0 ![2, 2, 2] (![1, 0, 0] : V3) ∧ ¬ OnBox 1 0 ![2, 2, 2] (![0, 0, 0] : V3) := by
  refine ⟨by simp, by norm_num, ⟨![1, 0, 0], by simp, ?_, 0, by simp⟩, ?_⟩
  · intro k; fin_cases k <;> simp
  · rintro ⟨x, hx, -, k, hk⟩
    simp only [one_mulVec, add_zero] at hx
    rw [← hx] at hk
    fin_cases k <;> simp at hk

example : (createSparseBoxGrid 1 0 [0, ![1, 2, 3]] 1 1 1 (7 : ℕ) [5]).faces.length = 24 := by
  have := (C126_grid 1 0 [0, ![1, 2, 3]] 1 1 1 (7 : ℕ) [5] (by simp)).1
  have h := congrArg List.length this
  simpa [Mesh.triangles, createBoxTriangles] using h

end Simox.Msh
