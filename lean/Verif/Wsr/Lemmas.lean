import Verif.Wsr.Spec
import Mathlib.Tactic.Linarith
import Mathlib.Tactic.FieldSimp
import Mathlib.Tactic.Ring
import Mathlib.Tactic.FinCases
import Mathlib.Algebra.Order.Field.Basic

/-! # Lemmas on voxel addresses -/

namespace Simox.Wsr

open Workspace Spec

/-- A representation with consistent members. -/
structure Ok (r : Rep) : Prop where
  bounds : ∀ i, r.lo i < r.hi i
  space : ∀ i, r.space i = r.hi i - r.lo i
  num : ∀ i, 0 < r.num i

theorem toInt_nonneg {x : ℝ} (h : 0 ≤ x) : 0 ≤ toInt x := by
  unfold toInt; rw [if_pos h]; exact Int.floor_nonneg.2 h

theorem initialize_eq {b stepT stepR lo hi adj r} (h : initialize' b stepT stepR lo hi adj = some r) :
    0 < stepT ∧ 0 < stepR ∧ Ok r ∧ r.lo = lo ∧ r.hi = hi ∧ r.stepT = stepT ∧ r.stepR = stepR ∧
    r.num = voxelCount stepT stepR lo hi ∧ r.data = Workspace.new (sizesOf r.num) adj ∧
    r.loops = 0 ∧ r.collisions = 0 ∧ r.achLo = (fun _ => fltMax) ∧ r.achHi = (fun _ => -fltMax) := by
  unfold initialize' at h
  split at h; · exact absurd h (by simp)
  rename_i h1
  split at h; · exact absurd h (by simp)
  rename_i h2
  split at h; · exact absurd h (by simp)
  split at h; · exact absurd h (by simp)
  rename_i h4
  push Not at h1 h2 h4
  have := Option.some.inj h
  subst this
  exact ⟨h1.1, h1.2, ⟨h2, fun _ => rfl, h4⟩, rfl, rfl, rfl, rfl, rfl, rfl, rfl, rfl, rfl, rfl⟩

theorem edge_pos {r : Rep} (h : Ok r) (i : Fin 6) : 0 < edge r i :=
  div_pos (sub_pos.2 (h.bounds i)) (by exact_mod_cast h.num i)

theorem edge_mul {r : Rep} (h : Ok r) (i : Fin 6) : edge r i * r.num i = r.hi i - r.lo i := by
  have : (r.num i : ℝ) ≠ 0 := by exact_mod_cast (h.num i).ne'
  unfold edge; field_simp

theorem voxelSize_eq {r : Rep} (h : Ok r) (i : Fin 6) : getVoxelSize r i = edge r i := by
  unfold getVoxelSize edge; rw [if_neg (not_le.2 (h.num i)), h.space]

theorem pos_eq {r : Rep} (h : Ok r) (i : Fin 6) (x : ℝ) :
    (x - r.lo i) / r.space i * r.num i = (x - r.lo i) / edge r i := by
  have h1 : (r.num i : ℝ) ≠ 0 := by exact_mod_cast (h.num i).ne'
  have h2 : r.hi i - r.lo i ≠ 0 := (sub_pos.2 (h.bounds i)).ne'
  rw [h.space]; unfold edge; field_simp

/-- Closed form of the address of one coordinate. -/
theorem axis_eq {r : Rep} (h : Ok r) (i : Fin 6) (x : ℝ) :
    axisVoxel r i x =
      if -(3 / 2) < (x - r.lo i) / edge r i ∧ (x - r.lo i) / edge r i < r.num i + 1 / 2 then
        some (min ⌊(x - r.lo i) / edge r i⌋ (r.num i - 1)).toNat
      else none := by
  have hn := h.num i
  unfold axisVoxel
  simp only [pos_eq h]
  generalize (x - r.lo i) / edge r i = p
  generalize r.num i = n at hn
  unfold toInt
  have hnR : (1 : ℝ) ≤ (n : ℝ) := by exact_mod_cast hn
  by_cases hp : 0 ≤ p
  · rw [if_pos hp]
    have h0 : 0 ≤ ⌊p⌋ := Int.floor_nonneg.2 hp
    have h1 := Int.floor_le p
    have h2 := Int.lt_floor_add_one p
    rw [if_neg (not_lt.2 h0)]
    by_cases ha : ⌊p⌋ ≥ n
    · rw [if_pos ha]
      have hR : (n : ℝ) ≤ (⌊p⌋ : ℝ) := by exact_mod_cast ha
      by_cases hh : p < n + 1 / 2
      · have e : ⌊p⌋ = n := by
          apply le_antisymm _ ha
          have : (⌊p⌋ : ℝ) < n + 1 := by linarith
          exact Int.lt_add_one_iff.1 (by exact_mod_cast this)
        have e' : (⌊p⌋ : ℝ) = n := by exact_mod_cast e
        rw [if_pos ⟨e, by rw [e', abs_lt]; constructor <;> linarith⟩, if_pos ⟨by linarith, hh⟩, min_eq_right (by omega)]
      · rw [if_neg, if_neg (fun hc => hh hc.2)]
        rintro ⟨e, hc⟩
        have e' : (⌊p⌋ : ℝ) = n := by exact_mod_cast e
        rw [e', abs_lt] at hc; linarith
    · rw [if_neg ha]
      have ha' : ⌊p⌋ + 1 ≤ n := by omega
      have : (⌊p⌋ : ℝ) + 1 ≤ n := by exact_mod_cast ha'
      rw [if_pos ⟨by linarith, by linarith⟩, min_eq_left (by omega)]
  · rw [if_neg hp]
    have hp' : p < 0 := not_le.1 hp
    have h1 := Int.le_ceil p
    have h2 := Int.ceil_lt_add_one p
    have hf : ⌊p⌋ < 0 := Int.floor_lt.2 (by exact_mod_cast hp')
    have hc0 : ⌈p⌉ ≤ 0 := Int.ceil_le.2 (by simpa using hp'.le)
    have hmin : (min ⌊p⌋ (n - 1)).toNat = 0 := by omega
    by_cases ha : ⌈p⌉ < 0
    · rw [if_pos ha]
      have hm1 : ⌈p⌉ ≤ -1 := by omega
      have hm1R : (⌈p⌉ : ℝ) ≤ -1 := by exact_mod_cast hm1
      by_cases hh : -(3 / 2) < p
      · have e : ⌈p⌉ = -1 := by
          apply le_antisymm hm1
          have : (-2 : ℝ) < ⌈p⌉ := by linarith
          have : (-2 : ℤ) < ⌈p⌉ := by exact_mod_cast this
          omega
        have e' : (⌈p⌉ : ℝ) = -1 := by exact_mod_cast e
        rw [if_pos ⟨e, by rw [e', abs_lt]; constructor <;> linarith⟩, if_pos ⟨hh, by linarith⟩, hmin]
      · rw [if_neg, if_neg (fun hc => hh hc.1)]
        rintro ⟨e, hc⟩
        have e' : (⌈p⌉ : ℝ) = -1 := by exact_mod_cast e
        rw [e', abs_lt] at hc; linarith
    · have e : ⌈p⌉ = 0 := by omega
      have e' : (⌈p⌉ : ℝ) = 0 := by exact_mod_cast e
      rw [if_neg ha, if_neg (by omega), if_pos ⟨by linarith, by linarith⟩, hmin, e]; rfl

theorem axis_accept {r : Rep} (h : Ok r) (i : Fin 6) (x : ℝ) :
    (-(3 / 2) < (x - r.lo i) / edge r i ∧ (x - r.lo i) / edge r i < r.num i + 1 / 2) ↔
      (r.lo i - 3 / 2 * edge r i < x ∧ x < r.hi i + 1 / 2 * edge r i) := by
  have hs := edge_pos h i
  have hm := edge_mul h i
  rw [lt_div_iff₀ hs, div_lt_iff₀ hs]
  constructor <;> rintro ⟨a, b⟩ <;> constructor <;> nlinarith

theorem vox_ext {u v : Vox} (h : ∀ i, at6 u i = at6 v i) : u = v := by
  have h0 := h 0; have h1 := h 1; have h2 := h 2; have h3 := h 3; have h4 := h 4; have h5 := h 5
  simp only [at6] at h0 h1 h2 h3 h4 h5
  cases u; cases v; simp_all

theorem getVoxel_iff (r : Rep) (x : Fin 6 → ℝ) (v : Vox) :
    getVoxelFromPose r x = some v ↔ ∀ i, axisVoxel r i (x i) = some (at6 v i) := by
  unfold getVoxelFromPose
  constructor
  · intro h
    simp only [Option.bind_eq_bind, Option.bind_eq_some_iff, Option.pure_def, Option.some.injEq] at h
    obtain ⟨a, ha, b, hb, c, hc, d, hd, e, he, f, hf, rfl⟩ := h
    intro i; fin_cases i <;> simpa [at6]
  · intro h
    have h0 := h 0; have h1 := h 1; have h2 := h 2; have h3 := h 3; have h4 := h 4; have h5 := h 5
    simp only [at6] at h0 h1 h2 h3 h4 h5
    simp only [h0, h1, h2, h3, h4, h5]
    rfl

/-- The address of a pose in closed form. -/
noncomputable def address (r : Rep) (x : Fin 6 → ℝ) (i : Fin 6) : Nat :=
  (min ⌊(x i - r.lo i) / edge r i⌋ (r.num i - 1)).toNat

/-- Index with given components. -/
def mkVox (f : Fin 6 → Nat) : Vox := ⟨f 0, f 1, f 2, f 3, f 4, f 5⟩

theorem at6_mkVox (f : Fin 6 → Nat) (i : Fin 6) : at6 (mkVox f) i = f i := by
  fin_cases i <;> rfl

theorem getVoxel_eq {r : Rep} (h : Ok r) (x : Fin 6 → ℝ) (v : Vox) :
    getVoxelFromPose r x = some v ↔ Accepted r x ∧ ∀ i, at6 v i = address r x i := by
  rw [getVoxel_iff]
  constructor
  · intro hv
    have : ∀ i, (r.lo i - 3 / 2 * edge r i < x i ∧ x i < r.hi i + 1 / 2 * edge r i) ∧
        at6 v i = address r x i := by
      intro i
      have := hv i
      rw [axis_eq h] at this
      split at this
      · rename_i hc
        exact ⟨(axis_accept h i (x i)).1 hc, (Option.some.inj this).symm⟩
      · exact absurd this (by simp)
    exact ⟨fun i => (this i).1, fun i => (this i).2⟩
  · rintro ⟨ha, he⟩ i
    rw [axis_eq h, if_pos ((axis_accept h i (x i)).2 (ha i)), he i]; rfl

theorem address_lt {r : Rep} (h : Ok r) (x : Fin 6 → ℝ) (i : Fin 6) :
    (address r x i : ℤ) < r.num i := by
  have := h.num i
  unfold address; omega

theorem accepted_some {r : Rep} (h : Ok r) {x : Fin 6 → ℝ} (ha : Accepted r x) :
    getVoxelFromPose r x = some (mkVox (address r x)) :=
  (getVoxel_eq h x _).2 ⟨ha, at6_mkVox _⟩

theorem inside_accepted {r : Rep} (h : Ok r) {x : Fin 6 → ℝ} (hx : Inside r x) : Accepted r x := by
  intro i
  have := edge_pos h i
  have := hx i
  constructor <;> linarith

/-- A coordinate is addressed by `k` if it lies in the half open interval of `k`. -/
theorem address_of_mem {r : Rep} (h : Ok r) {x : Fin 6 → ℝ} {i : Fin 6} {k : Nat}
    (hk : (k : ℤ) < r.num i) (h1 : r.lo i + k * edge r i ≤ x i) (h2 : x i < r.lo i + (k + 1) * edge r i) :
    address r x i = k := by
  have hs := edge_pos h i
  have : ⌊(x i - r.lo i) / edge r i⌋ = (k : ℤ) := by
    rw [Int.floor_eq_iff]
    constructor
    · rw [le_div_iff₀ hs]; push_cast; linarith
    · rw [div_lt_iff₀ hs]; push_cast; linarith
  unfold address; rw [this]; omega

theorem address_of_top {r : Rep} (h : Ok r) {x : Fin 6 → ℝ} {i : Fin 6} (h1 : r.hi i ≤ x i) :
    (address r x i : ℤ) + 1 = r.num i := by
  have hs := edge_pos h i
  have hm := edge_mul h i
  have hn := h.num i
  have : r.num i ≤ ⌊(x i - r.lo i) / edge r i⌋ := by
    rw [Int.le_floor, le_div_iff₀ hs]; linarith
  unfold address; omega

theorem address_of_low {r : Rep} (h : Ok r) {x : Fin 6 → ℝ} {i : Fin 6} (h1 : x i < r.lo i) :
    address r x i = 0 := by
  have hs := edge_pos h i
  have : ⌊(x i - r.lo i) / edge r i⌋ < 0 := by
    rw [Int.floor_lt, div_lt_iff₀ hs]; push_cast; linarith
  unfold address; omega

theorem address_mem {r : Rep} (h : Ok r) {x : Fin 6 → ℝ} {i : Fin 6} (h1 : r.lo i ≤ x i) (h2 : x i < r.hi i) :
    r.lo i + address r x i * edge r i ≤ x i ∧ x i < r.lo i + (address r x i + 1) * edge r i := by
  have hs := edge_pos h i
  have hm := edge_mul h i
  have h0 : 0 ≤ ⌊(x i - r.lo i) / edge r i⌋ := Int.floor_nonneg.2 (div_nonneg (by linarith) hs.le)
  have hlt : ⌊(x i - r.lo i) / edge r i⌋ < r.num i := by
    rw [Int.floor_lt, div_lt_iff₀ hs]; linarith
  have e : (address r x i : ℤ) = ⌊(x i - r.lo i) / edge r i⌋ := by unfold address; omega
  have e' : (address r x i : ℝ) = ⌊(x i - r.lo i) / edge r i⌋ := by exact_mod_cast e
  have f1 := Int.floor_le ((x i - r.lo i) / edge r i)
  have f2 := Int.lt_floor_add_one ((x i - r.lo i) / edge r i)
  rw [le_div_iff₀ hs] at f1
  rw [div_lt_iff₀ hs] at f2
  rw [e']
  constructor <;> linarith

theorem sizes_inRange {r : Rep} (_h : Ok r) (v : Vox) :
    Workspace.Spec.InRange (sizesOf r.num) v ↔ IsIndex r v := by
  unfold Workspace.Spec.InRange IsIndex sizesOf
  constructor
  · rintro ⟨h0, h1, h2, h3, h4, h5⟩ i
    simp only at h0 h1 h2 h3 h4 h5
    fin_cases i <;> simp [at6] <;> omega
  · intro h
    have h0 := h 0; have h1 := h 1; have h2 := h 2; have h3 := h 3; have h4 := h 4; have h5 := h 5
    simp only [at6] at h0 h1 h2 h3 h4 h5
    refine ⟨?_, ?_, ?_, ?_, ?_, ?_⟩ <;> simp only <;> omega

end Simox.Wsr
