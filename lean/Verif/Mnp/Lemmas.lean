import Verif.Mnp.Spec
import Mathlib.LinearAlgebra.Matrix.Charpoly.Basic
import Mathlib.LinearAlgebra.Matrix.Charpoly.Coeff
import Mathlib.LinearAlgebra.Matrix.DotProduct
import Mathlib.LinearAlgebra.Matrix.ToLinearEquiv
import Mathlib.Data.List.Sort
import Mathlib.Algebra.Polynomial.Roots
import Mathlib.Tactic.Positivity
import Mathlib.Tactic.FieldSimp
import Mathlib.Tactic.Linarith

/-!
# Lemmas about the pose qualities
-/

namespace Simox.Mnp

open Matrix Spec

theorem svd_gram_left {k n : ℕ} {A : Matrix (Fin k) (Fin n) ℝ} {m : ℕ} {U : Matrix (Fin k) (Fin m) ℝ}
    {V : Matrix (Fin n) (Fin m) ℝ} {s : Fin m → ℝ} (hV : Vᵀ * V = 1) (hA : A = U * diagonal s * Vᵀ) :
    A * Aᵀ = U * diagonal (fun i => s i * s i) * Uᵀ := by
  rw [hA, transpose_mul, transpose_mul, transpose_transpose, diagonal_transpose]
  calc U * diagonal s * Vᵀ * (V * (diagonal s * Uᵀ))
      = U * diagonal s * (Vᵀ * V) * (diagonal s * Uᵀ) := by simp only [Matrix.mul_assoc]
    _ = U * (diagonal s * diagonal s) * Uᵀ := by rw [hV]; simp only [Matrix.mul_assoc, Matrix.mul_one]
    _ = _ := by rw [diagonal_mul_diagonal]

theorem svd_gram_right {k n : ℕ} {A : Matrix (Fin k) (Fin n) ℝ} {m : ℕ} {U : Matrix (Fin k) (Fin m) ℝ}
    {V : Matrix (Fin n) (Fin m) ℝ} {s : Fin m → ℝ} (hU : Uᵀ * U = 1) (hA : A = U * diagonal s * Vᵀ) :
    Aᵀ * A = V * diagonal (fun i => s i * s i) * Vᵀ := by
  have h : Aᵀ = V * diagonal s * Uᵀ := by
    rw [hA, transpose_mul, transpose_mul, transpose_transpose, diagonal_transpose, Matrix.mul_assoc]
  have := svd_gram_left (A := Aᵀ) hU h
  rwa [transpose_transpose] at this

theorem conj_det {k : ℕ} {U : Matrix (Fin k) (Fin k) ℝ} (hU : Uᵀ * U = 1) (t : Fin k → ℝ) :
    (U * diagonal t * Uᵀ).det = ∏ i, t i := by
  rw [Matrix.det_mul_comm, ← Matrix.mul_assoc, hU, Matrix.one_mul, det_diagonal]

theorem conj_charpoly {k : ℕ} {U : Matrix (Fin k) (Fin k) ℝ} (hU : Uᵀ * U = 1) (t : Fin k → ℝ) :
    (U * diagonal t * Uᵀ).charpoly = ∏ i, (Polynomial.X - Polynomial.C (t i)) := by
  rw [Matrix.charpoly_mul_comm, ← Matrix.mul_assoc, hU, Matrix.one_mul, charpoly_diagonal]

theorem sorted_unique {k : ℕ} {s t : Fin k → ℝ} (hs : ∀ i, 0 ≤ s i) (ht : ∀ i, 0 ≤ t i) (as : Antitone s)
    (at' : Antitone t)
    (h : (∏ i, (Polynomial.X - Polynomial.C (s i * s i))) = ∏ i, (Polynomial.X - Polynomial.C (t i * t i))) :
    List.ofFn s = List.ofFn t := by
  have hr : ∀ u : Fin k → ℝ, (∏ i, (Polynomial.X - Polynomial.C (u i * u i))).roots =
      Finset.univ.val.map (fun i => u i * u i) := by
    intro u
    have := Polynomial.roots_multiset_prod_X_sub_C (Finset.univ.val.map (fun i => u i * u i))
    rw [Multiset.map_map] at this
    exact this
  have hm : Finset.univ.val.map (fun i => s i * s i) = Finset.univ.val.map (fun i => t i * t i) := by
    rw [← hr s, ← hr t, h]
  have hq : ∀ u : Fin k → ℝ, (∀ i, 0 ≤ u i) →
      (Finset.univ.val.map (fun i => u i * u i)).map Real.sqrt = (List.ofFn u : Multiset ℝ) := by
    intro u hu
    rw [Multiset.map_map, ← Fin.univ_val_map]
    exact Multiset.map_congr rfl fun i _ => Real.sqrt_mul_self (hu i)
  have hp : (List.ofFn s : Multiset ℝ) = List.ofFn t := by rw [← hq s hs, ← hq t ht, hm]
  have hsort : ∀ u : Fin k → ℝ, Antitone u → (List.ofFn u).Pairwise (fun a b => b ≤ a) := by
    intro u hu
    rw [List.pairwise_ofFn]
    exact fun i j hij => hu hij.le
  exact (Multiset.coe_eq_coe.mp hp).eq_of_pairwise (fun a b _ _ h1 h2 => le_antisymm h2 h1) (hsort s as) (hsort t at')

theorem isSVD_length {n : ℕ} {A : Matrix (Fin 6) (Fin n) ℝ} {sv : List ℝ} (h : IsSVD A sv) :
    sv.length = min 6 n := by
  obtain ⟨m, U, V, s, rfl, rfl, -⟩ := h
  rw [List.length_ofFn]

/-- The singular values are determined by `A Aᵀ`, or by `Aᵀ A`. -/
theorem isSVD_unique {n : ℕ} {A B : Matrix (Fin 6) (Fin n) ℝ} {sv tv : List ℝ} (h : IsSVD A sv) (h' : IsSVD B tv)
    (he : (6 ≤ n → A * Aᵀ = B * Bᵀ) ∧ (n ≤ 6 → Aᵀ * A = Bᵀ * B)) : sv = tv := by
  obtain ⟨m, U, V, s, hm, rfl, hU, hV, hA, hs, as⟩ := h
  obtain ⟨m', U', V', t, hm', rfl, hU', hV', hB, ht, at'⟩ := h'
  obtain rfl : m' = m := by omega
  rcases Nat.le_total 6 n with h6 | h6
  · obtain rfl : m' = 6 := by omega
    apply sorted_unique hs ht as at'
    rw [← conj_charpoly hU, ← conj_charpoly hU', ← svd_gram_left hV hA, ← svd_gram_left hV' hB, he.1 h6]
  · obtain rfl : m' = n := by omega
    apply sorted_unique hs ht as at'
    rw [← conj_charpoly hV, ← conj_charpoly hV', ← svd_gram_right hU hA, ← svd_gram_right hU' hB, he.2 h6]

theorem foldl_mul (l : List ℝ) (a : ℝ) : l.foldl (· * ·) a = a * l.prod := by
  induction l generalizing a with
  | nil => simp
  | cons x r ih => rw [List.foldl_cons, ih, List.prod_cons, mul_assoc]

theorem product_full (sv : List ℝ) (h : sv ≠ []) : product sv sv.length = sv.prod := by
  cases sv with
  | nil => exact absurd rfl h
  | cons s r =>
    show (r.take (r.length + 1 - 1)).foldl (· * ·) s = _
    rw [Nat.add_sub_cancel, List.take_length, foldl_mul, List.prod_cons]

theorem prod_sq {n : ℕ} {A : Matrix (Fin 6) (Fin n) ℝ} {sv : List ℝ} (h : IsSVD A sv) :
    0 ≤ sv.prod ∧ (6 ≤ n → sv.prod * sv.prod = (A * Aᵀ).det) ∧ (n ≤ 6 → sv.prod * sv.prod = (Aᵀ * A).det) := by
  obtain ⟨m, U, V, s, hm, rfl, hU, hV, hA, hs, as⟩ := h
  refine ⟨List.prod_nonneg (by simpa [List.mem_ofFn] using hs), fun h6 => ?_, fun h6 => ?_⟩
  · obtain rfl : m = 6 := by omega
    rw [svd_gram_left hV hA, conj_det hU, Finset.prod_mul_distrib, List.prod_ofFn]
  · obtain rfl : m = n := by omega
    rw [svd_gram_right hU hA, conj_det hV, Finset.prod_mul_distrib, List.prod_ofFn]

theorem dot_self_zero {k : ℕ} (v : Fin k → ℝ) : v ⬝ᵥ v = 0 ↔ v = 0 := dotProduct_self_eq_zero

/-- The Gram matrix is singular iff the matrix has a kernel. -/
theorem gram_det_zero {k n : ℕ} (A : Matrix (Fin k) (Fin n) ℝ) :
    (A * Aᵀ).det = 0 ↔ ∃ d : Fin k → ℝ, d ≠ 0 ∧ Aᵀ *ᵥ d = 0 := by
  rw [← Matrix.exists_mulVec_eq_zero_iff]
  constructor
  · rintro ⟨d, hd, e⟩
    refine ⟨d, hd, ?_⟩
    rw [← dot_self_zero]
    have : d ⬝ᵥ ((A * Aᵀ) *ᵥ d) = (Aᵀ *ᵥ d) ⬝ᵥ (Aᵀ *ᵥ d) := by
      rw [← mulVec_mulVec, dotProduct_mulVec, ← mulVec_transpose]
    rw [← this, e, dotProduct_zero]
  · rintro ⟨d, hd, e⟩
    exact ⟨d, hd, by rw [← mulVec_mulVec, e, mulVec_zero]⟩

theorem list_prod_zero_last {l : List ℝ} (h0 : ∀ x ∈ l, 0 ≤ x) (hs : l.Pairwise (fun a b => b ≤ a)) (hl : l ≠ []) :
    l.prod = 0 ↔ l.getD (l.length - 1) 0 = 0 := by
  rw [List.prod_eq_zero_iff]
  have hlt : l.length - 1 < l.length := by have := List.length_pos_iff.mpr hl; omega
  have hg : l.getD (l.length - 1) 0 = l[l.length - 1] := by simp [List.getD, hlt]
  rw [hg]
  constructor
  · intro hm
    obtain ⟨i, hi, e⟩ := List.mem_iff_getElem.mp hm
    rcases Nat.lt_or_ge i (l.length - 1) with h | h
    · have := List.pairwise_iff_getElem.mp hs i (l.length - 1) hi hlt h
      exact le_antisymm (e ▸ this) (h0 _ (List.getElem_mem _))
    · have : i = l.length - 1 := by omega
      subst this
      exact e
  · intro e
    exact e ▸ List.getElem_mem _

theorem isSVD_sorted {n : ℕ} {A : Matrix (Fin 6) (Fin n) ℝ} {sv : List ℝ} (h : IsSVD A sv) :
    (∀ x ∈ sv, 0 ≤ x) ∧ sv.Pairwise (fun a b => b ≤ a) := by
  obtain ⟨m, U, V, s, hm, rfl, hU, hV, hA, hs, as⟩ := h
  refine ⟨by simpa [List.mem_ofFn] using hs, ?_⟩
  rw [List.pairwise_ofFn]
  exact fun i j hij => as hij.le

theorem considered_le (first : ℤ) (rows : ℕ) : considered first rows ≤ rows := by
  unfold considered
  split <;> omega

theorem considered_pos (first : ℤ) {rows : ℕ} (h : 0 < rows) : 0 < considered first rows := by
  unfold considered
  split <;> omega

theorem weighted_penalize {n : ℕ} (J : Matrix (Fin 6) (Fin n) ℝ) : Weighted (15 / 100) J (penalize J) := by
  refine ⟨fun i j h => ?_, fun i j h => ?_⟩
  · unfold penalize
    rw [if_neg (by omega)]
  · unfold penalize
    rw [if_pos h, mul_comm]

/-- The weights as a diagonal matrix. -/
noncomputable def wdiag : Matrix (Fin 6) (Fin 6) ℝ := diagonal fun i => if 3 ≤ i.val then 15 / 100 else 1

theorem penalize_eq {n : ℕ} (J : Matrix (Fin 6) (Fin n) ℝ) : penalize J = wdiag * J := by
  ext i j
  unfold wdiag penalize
  rw [diagonal_mul]
  split
  · ring
  · ring

theorem wdiag_det : wdiag.det = (15 / 100) ^ 3 := by
  unfold wdiag
  rw [det_diagonal]
  simp [Fin.prod_univ_succ, Fin.val_succ]
  norm_num

theorem penalize_singular {n : ℕ} (J : Matrix (Fin 6) (Fin n) ℝ) : Singular (penalize J) ↔ Singular J := by
  have hdet : IsUnit wdiag.det := by rw [wdiag_det]; exact isUnit_iff_ne_zero.mpr (by norm_num)
  have ht : wdiagᵀ = wdiag := by unfold wdiag; rw [diagonal_transpose]
  have h1 : wdiag⁻¹ * wdiag = 1 := nonsing_inv_mul _ hdet
  have h2 : wdiag * wdiag⁻¹ = 1 := mul_nonsing_inv _ hdet
  unfold Singular
  rw [penalize_eq]
  refine and_congr (imp_congr_right fun _ => ⟨?_, ?_⟩) (imp_congr_right fun _ => ⟨?_, ?_⟩)
  · rintro ⟨d, hd, e⟩
    refine ⟨wdiag *ᵥ d, fun h => hd ?_, ?_⟩
    · rw [← one_mulVec d, ← h1, ← mulVec_mulVec, h, mulVec_zero]
    · rw [transpose_mul, ht, ← mulVec_mulVec] at e
      exact e
  · rintro ⟨d, hd, e⟩
    refine ⟨wdiag⁻¹ *ᵥ d, fun h => hd ?_, ?_⟩
    · rw [← one_mulVec d, ← h2, ← mulVec_mulVec, h, mulVec_zero]
    · rw [transpose_mul, ht, ← mulVec_mulVec, mulVec_mulVec _ wdiag, h2, one_mulVec]
      exact e
  · rintro ⟨q, hq, e⟩
    refine ⟨q, hq, ?_⟩
    have e' : wdiag *ᵥ (J *ᵥ q) = 0 := by rw [mulVec_mulVec]; exact e
    rw [← one_mulVec (J *ᵥ q), ← h1, ← mulVec_mulVec, e', mulVec_zero]
  · rintro ⟨q, hq, e⟩
    exact ⟨q, hq, by rw [← mulVec_mulVec, e, mulVec_zero]⟩

/-- The two halves of the six coordinates. -/
def e6 : Fin 3 ⊕ Fin 3 ≃ Fin 6 := finSumFinEquiv

/-- A rotation of both halves. -/
def both (R : Matrix (Fin 3) (Fin 3) ℝ) : Matrix (Fin 6) (Fin 6) ℝ :=
  (fromBlocks R 0 0 R).submatrix e6.symm e6.symm

theorem both_orth {R : Matrix (Fin 3) (Fin 3) ℝ} (hR : Rᵀ * R = 1) : (both R)ᵀ * both R = 1 := by
  unfold both
  rw [transpose_submatrix, submatrix_mul_equiv, fromBlocks_transpose, fromBlocks_multiply]
  simp [hR]

theorem both_apply (R : Matrix (Fin 3) (Fin 3) ℝ) (x y : Fin 3 ⊕ Fin 3) :
    both R (e6 x) (e6 y) = fromBlocks R 0 0 R x y := by
  unfold both
  rw [submatrix_apply, Equiv.symm_apply_apply, Equiv.symm_apply_apply]

theorem both_mul {n : ℕ} {R : Matrix (Fin 3) (Fin 3) ℝ} {J J' : Matrix (Fin 6) (Fin n) ℝ} (h : Rotated R J J') :
    penalize J' = both R * penalize J := by
  have hl : ∀ k : Fin 3, e6 (Sum.inl k) = (⟨k.val, by omega⟩ : Fin 6) := fun k => rfl
  have hr : ∀ k : Fin 3, e6 (Sum.inr k) = (⟨k.val + 3, by omega⟩ : Fin 6) := fun k => by
    apply Fin.ext
    show 3 + k.val = k.val + 3
    omega
  ext i j
  obtain ⟨x, rfl⟩ := e6.surjective i
  rw [mul_apply, ← e6.sum_comp, Fintype.sum_sum_type]
  cases x with
  | inl i =>
    have z : ∑ k : Fin 3, both R (e6 (Sum.inl i)) (e6 (Sum.inr k)) *
        penalize J (e6 (Sum.inr k)) j = 0 :=
      Finset.sum_eq_zero fun k _ => by rw [both_apply, fromBlocks_apply₁₂, Matrix.zero_apply, zero_mul]
    have e : ∀ (A : Matrix (Fin 6) (Fin n) ℝ) (k : Fin 3), penalize A (e6 (Sum.inl k)) j =
        A ⟨k.val, by omega⟩ j := fun A k => by
      rw [hl]
      unfold penalize
      rw [if_neg (by simp)]
    rw [z, add_zero, e, h.1 i j]
    exact Finset.sum_congr rfl fun k _ => by rw [both_apply, fromBlocks_apply₁₁, e]
  | inr i =>
    have z : ∑ k : Fin 3, both R (e6 (Sum.inr i)) (e6 (Sum.inl k)) *
        penalize J (e6 (Sum.inl k)) j = 0 :=
      Finset.sum_eq_zero fun k _ => by rw [both_apply, fromBlocks_apply₂₁, Matrix.zero_apply, zero_mul]
    have e : ∀ (A : Matrix (Fin 6) (Fin n) ℝ) (k : Fin 3), penalize A (e6 (Sum.inr k)) j =
        A ⟨k.val + 3, by omega⟩ j * (15 / 100) := fun A k => by
      rw [hr]
      unfold penalize
      rw [if_pos (by simp)]
    rw [z, zero_add, e, h.2 i j, Finset.sum_mul]
    exact Finset.sum_congr rfl fun k _ => by rw [both_apply, fromBlocks_apply₂₂, e, mul_assoc]

theorem isSVD_rotate {n : ℕ} {Q : Matrix (Fin 6) (Fin 6) ℝ} (hQ : Qᵀ * Q = 1) {A : Matrix (Fin 6) (Fin n) ℝ}
    {sv : List ℝ} (h : IsSVD A sv) : IsSVD (Q * A) sv := by
  obtain ⟨m, U, V, s, hm, hs, hU, hV, hA, h0, ha⟩ := h
  refine ⟨m, Q * U, V, s, hm, hs, ?_, hV, ?_, h0, ha⟩
  · rw [transpose_mul, Matrix.mul_assoc, ← Matrix.mul_assoc Qᵀ, hQ, Matrix.one_mul, hU]
  · rw [hA]
    simp only [Matrix.mul_assoc]

/-! ### Joint limits -/

/-- The part of one joint. -/
noncomputable def part (j : Joint) : ℝ := limitStep 1 j

theorem limitStep_eq (p : ℝ) (j : Joint) : limitStep p j = p * part j := by
  unfold part limitStep
  split
  · rw [one_mul]
  · rw [mul_one]

theorem limits_prod (js : List Joint) (p : ℝ) : js.foldl limitStep p = p * (js.map part).prod := by
  induction js generalizing p with
  | nil => simp
  | cons j r ih => rw [List.foldl_cons, ih, limitStep_eq, List.map_cons, List.prod_cons, mul_assoc]

theorem part_within {j : Joint} (h : Within j) :
    0 ≤ part j ∧ part j ≤ 1 ∧ (j.lo < j.hi → part j ≤ 1 / 4) ∧ (part j = 0 ↔ AtLimit j) := by
  obtain ⟨h1, h2⟩ := h
  unfold part limitStep AtLimit
  by_cases hd : (j.hi - j.lo) * (j.hi - j.lo) ≠ 0
  · rw [if_pos hd, one_mul]
    have hne : j.hi - j.lo ≠ 0 := fun e => hd (by rw [e, zero_mul])
    have hlt : j.lo < j.hi := lt_of_le_of_ne (h1.trans h2) fun e => hne (by rw [e, sub_self])
    have hp : 0 < (j.hi - j.lo) * (j.hi - j.lo) := by
      have : 0 < j.hi - j.lo := by linarith
      positivity
    have hq : (j.q - j.lo) * (j.hi - j.q) / ((j.hi - j.lo) * (j.hi - j.lo)) ≤ 1 / 4 := by
      rw [div_le_div_iff₀ hp (by norm_num)]
      nlinarith [sq_nonneg (2 * j.q - j.lo - j.hi)]
    refine ⟨div_nonneg (mul_nonneg (by linarith) (by linarith)) hp.le, hq.trans (by norm_num), fun _ => hq, ?_⟩
    rw [div_eq_zero_iff, or_iff_left hd, mul_eq_zero, sub_eq_zero, sub_eq_zero]
    exact ⟨fun h => ⟨hlt, h.imp id Eq.symm⟩, fun h => h.2.imp id Eq.symm⟩
  · rw [if_neg hd]
    have hne : j.hi - j.lo = 0 := by
      have := not_not.mp hd
      exact mul_self_eq_zero.mp this
    refine ⟨zero_le_one, le_refl _, fun h => absurd hne (by linarith), ?_⟩
    exact ⟨fun h => absurd h one_ne_zero, fun h => absurd h.1 (by linarith)⟩

theorem limits_within {js : List Joint} (h : ∀ j ∈ js, Within j) :
    0 ≤ (js.map part).prod ∧ (js.map part).prod ≤ 1 ∧ ((js.map part).prod = 0 ↔ ∃ j ∈ js, AtLimit j) := by
  induction js with
  | nil => simp
  | cons j r ih =>
    obtain ⟨a, b, c⟩ := ih fun x hx => h x (List.mem_cons_of_mem _ hx)
    obtain ⟨a', b', -, c'⟩ := part_within (h j List.mem_cons_self)
    rw [List.map_cons, List.prod_cons]
    refine ⟨mul_nonneg a' a, mul_le_one₀ b' a b, ?_⟩
    rw [mul_eq_zero, c, c']
    simp

end Simox.Mnp
