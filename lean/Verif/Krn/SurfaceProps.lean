import Verif.Krn.KernelProps
import Mathlib.Data.Fin.VecNotation
import Mathlib.LinearAlgebra.Matrix.Notation
import Mathlib.Tactic.FinCases
import Mathlib.Tactic.NormNum

/-!
# Gaussian implicit surfaces: C100, C101
-/

namespace Simox.Krn

open Matrix

/-- The kernels that there are. -/
def isKernel (K : Kernel) : Prop := (∃ l, K = gaussian l) ∨ K = williamsPlus ∨ K = williamsMinus

theorem sqd_self (p : V) : sqd p p = 0 := by simp [sqd]

theorem isKernel.comm {K : Kernel} (h : isKernel K) (p q : V) (R : ℝ) : K.k p q R = K.k q p R := by
  rcases h with ⟨l, rfl⟩ | rfl | rfl
  · simp [gaussian, sqd_comm p q]
  · exact k_comm isWilliams_plus _ _ _
  · exact k_comm isWilliams_minus _ _ _

/-! ## Solving -/

theorem gram_some {K : Kernel} {R : ℝ} {N : Nat} {feat : Fin N → V × Nat} {c : Matrix (Fin N) (Fin N) ℝ} (h : gram K R feat = some c) :
    (∀ i j, (gramAt K R feat i j).isSome) ∧ c = fun i j => (gramAt K R feat i j).getD 0 := by
  unfold gram at h
  split at h
  · next h' => exact ⟨h', (Option.some.inj h).symm⟩
  · cases h

/-- The value of a feature for the solution: `f` is the row of the matrix without noise. -/
theorem solve_row {N : Nat} (feat : Fin N → V × Nat) (R : ℝ) (c : Matrix (Fin N) (Fin N) ℝ) (n y : Fin N → ℝ)
    (hdet : (c + Matrix.diagonal n).det ≠ 0) (i : Fin N) :
    ∑ j, c i j * (solve feat R (c + Matrix.diagonal n) y).alpha j = y i - n i * (solve feat R (c + Matrix.diagonal n) y).alpha i := by
  set C := c + Matrix.diagonal n with hC
  have h1 : C.mulVec (C⁻¹.mulVec y) = y := by
    rw [Matrix.mulVec_mulVec, Matrix.mul_nonsing_inv _ (isUnit_iff_ne_zero.mpr hdet), Matrix.one_mulVec]
  have h2 := congrFun h1 i
  have h3 : C.mulVec (C⁻¹.mulVec y) i = ∑ j, c i j * (C⁻¹.mulVec y) j + n i * (C⁻¹.mulVec y) i := by
    rw [Matrix.mulVec, dotProduct, hC]
    simp only [Matrix.add_apply, add_mul, Finset.sum_add_distrib]
    congr 1
    rw [Finset.sum_eq_single i]
    · rw [Matrix.diagonal_apply_eq]
    · intro j _ hj; rw [Matrix.diagonal_apply_ne _ (Ne.symm hj), zero_mul]
    · simp
  have : (solve feat R C y).alpha = C⁻¹.mulVec y := rfl
  rw [this]
  linarith

theorem solve_var {N : Nat} (c : Matrix (Fin N) (Fin N) ℝ) (hs : ∀ i j, c i j = c j i) (n : Fin N → ℝ)
    (hdet : (c + Matrix.diagonal n).det ≠ 0) (i : Fin N) :
    c i i - ∑ j, c i j * ((c + Matrix.diagonal n)⁻¹.mulVec (c i)) j = n i - n i * n i * (c + Matrix.diagonal n)⁻¹ i i := by
  set C := c + Matrix.diagonal n with hC
  have hu := isUnit_iff_ne_zero.mpr hdet
  have hrow : c i = C.mulVec (Pi.single i 1) - Pi.single i (n i) := by
    funext j
    rw [Pi.sub_apply, Matrix.mulVec_single_one]
    by_cases h : j = i
    · subst h; simp [hC, Matrix.col]
    · simp [hC, Matrix.col, h, hs i j]
  have hsym : ∀ j k, C j k = C k j := by
    intro j k
    by_cases h : j = k
    · subst h; rfl
    · rw [hC, Matrix.add_apply, Matrix.add_apply, Matrix.diagonal_apply_ne _ h, Matrix.diagonal_apply_ne _ (Ne.symm h), hs]
  have h1 : C⁻¹.mulVec (c i) = Pi.single i 1 - n i • C⁻¹.col i := by
    rw [hrow, Matrix.mulVec_sub, Matrix.mulVec_mulVec, Matrix.nonsing_inv_mul _ hu, Matrix.one_mulVec]
    congr 1
    funext j
    rw [Matrix.mulVec_single]
    simp [Matrix.col, mul_comm]
  have h2 : ∑ j, c i j * C⁻¹ j i = 1 - n i * C⁻¹ i i := by
    have e := congrFun (congrFun (Matrix.mul_nonsing_inv C hu) i) i
    rw [Matrix.mul_apply, Matrix.one_apply_eq] at e
    have e2 : ∑ j, C i j * C⁻¹ j i = ∑ j, c i j * C⁻¹ j i + n i * C⁻¹ i i := by
      rw [hC]
      simp only [Matrix.add_apply, add_mul, Finset.sum_add_distrib]
      congr 1
      rw [Finset.sum_eq_single i]
      · rw [Matrix.diagonal_apply_eq]
      · intro j _ hj; rw [Matrix.diagonal_apply_ne _ (Ne.symm hj), zero_mul]
      · simp
    linarith
  rw [h1]
  simp only [Pi.sub_apply, Pi.smul_apply, smul_eq_mul, mul_sub, Finset.sum_sub_distrib]
  have h3 : ∑ j, c i j * (Pi.single i (1 : ℝ) : Fin N → ℝ) j = c i i := by
    rw [Finset.sum_eq_single i]
    · simp
    · intro j _ hj; simp [hj]
    · simp
  have h4 : ∑ j, c i j * (n i * C⁻¹.col i j) = n i * ∑ j, c i j * C⁻¹ j i := by
    rw [Finset.mul_sum]
    refine Finset.sum_congr rfl fun j _ => ?_
    simp [Matrix.col]; ring
  rw [h3, h4, h2]
  ring

/-! ## Samples -/

theorem gramAt_value {K : Kernel} (hK : isKernel K) {n : Nat} (pos : Fin n → V) (R : ℝ) (i j : Fin n) :
    gramAt K R (fun i => (pos i, 0)) i j = some (K.k (pos i) (pos j) R) := by
  unfold gramAt
  split
  · simp [Kernel.ij]
  · simp [Kernel.ij, hK.comm]

/-- The covariance without noise. -/
noncomputable def vmat (K : Kernel) {n : Nat} (pos : Fin n → V) (R : ℝ) : Matrix (Fin n) (Fin n) ℝ := fun i j => K.k (pos i) (pos j) R

/-- The result of `calculate`. -/
noncomputable def vsurf (K : Kernel) {n : Nat} (pos : Fin n → V) (value noise : Fin n → ℝ) : Surface n :=
  solve (fun i => (pos i, 0)) (maxDist pos) (vmat K pos (maxDist pos) + Matrix.diagonal fun i => noise i * noise i) value

theorem calculate_eq {K : Kernel} (hK : isKernel K) {n : Nat} (pos : Fin n → V) (value noise : Fin n → ℝ) :
    calculate K pos value noise = some (vsurf K pos value noise) := by
  unfold calculate gram
  simp only [gramAt_value hK, Option.isSome_some, implies_true, if_true, Option.getD_some]
  rfl

theorem cux_vsurf (K : Kernel) {n : Nat} (pos : Fin n → V) (value noise : Fin n → ℝ) (p : V) (j : Fin n) :
    (vsurf K pos value noise).cux K p j = K.k p (pos j) (maxDist pos) := by
  simp [vsurf, Surface.cux, solve, Kernel.ij]

/-- **A surface goes through its samples.** For every kernel, all samples, values and noises: `Calculate` does not throw, and if the covariance
has an inverse, the prediction at a sample differs from its value by the square of the noise times a weight, and so not at all without
noise; the variance there is at most the square of the noise, in that sense, and zero without noise. -/
theorem C100_interpolates {K : Kernel} (hK : isKernel K) {n : Nat} (pos : Fin n → V) (value noise : Fin n → ℝ) :
    ∃ s, calculate K pos value noise = some s ∧ (s.cov.det ≠ 0 → ∀ i,
      s.predict K (pos i) = value i - noise i ^ 2 * s.alpha i ∧ s.variance K (pos i) = noise i ^ 2 - noise i ^ 4 * s.inv i i ∧
      (noise i = 0 → s.predict K (pos i) = value i ∧ s.variance K (pos i) = 0)) := by
  refine ⟨_, calculate_eq hK pos value noise, fun hdet i => ?_⟩
  have h1 := solve_row (fun i => (pos i, 0)) (maxDist pos) (vmat K pos (maxDist pos)) (fun i => noise i * noise i) value hdet i
  have h2 := solve_var (vmat K pos (maxDist pos)) (fun i j => hK.comm _ _ _) (fun i => noise i * noise i) hdet i
  have e1 : (vsurf K pos value noise).predict K (pos i) = value i - noise i * noise i * (vsurf K pos value noise).alpha i := by
    unfold Surface.predict
    simp only [cux_vsurf]
    exact h1
  have e2 : (vsurf K pos value noise).variance K (pos i) =
      noise i * noise i - noise i * noise i * (noise i * noise i) * (vsurf K pos value noise).inv i i := by
    unfold Surface.variance
    have : (vsurf K pos value noise).cux K (pos i) = vmat K pos (maxDist pos) i := funext fun j => cux_vsurf K pos value noise (pos i) j
    rw [this]
    exact h2
  refine ⟨by rw [e1]; ring, by rw [e2]; ring, fun h0 => ⟨by rw [e1, h0]; ring, by rw [e2, h0]; ring⟩⟩

/-- A point for the examples. -/
def origin : V := fun _ => 0

/-- Another one. -/
def unitX : V := fun i => if i = 0 then 1 else 0

theorem sqd_ox : sqd origin unitX = 1 := by simp [sqd, origin, unitX]

theorem dist_ox : dist origin unitX = 1 := by rw [dist, sqd_ox, Real.sqrt_one]

theorem dist_xo : dist unitX origin = 1 := by rw [dist_comm, dist_ox]

theorem dist_self (p : V) : dist p p = 0 := by rw [dist, sqd_self, Real.sqrt_zero]

theorem maxDist_ox : maxDist ![origin, unitX] = 1 := by
  simp [maxDist, List.finRange_succ, sqd_self, sqd_ox, sqd_comm unitX origin]

/-- The two samples (0, 0, 0) and (1, 0, 0) with the values 5 and -3: the covariance of WilliamsMinusKernel is the identity. -/
example : ∃ s, calculate williamsMinus ![origin, unitX] ![5, -3] ![0, 0] = some s ∧ s.cov = 1 ∧ s.cov.det ≠ 0 ∧
    s.predict williamsMinus unitX = -3 := by
  obtain ⟨s, h, hs⟩ := C100_interpolates (K := williamsMinus) (.inr (.inr rfl)) ![origin, unitX] ![5, -3] ![0, 0]
  have hc : s.cov = 1 := by
    rw [calculate_eq (.inr (.inr rfl)), Option.some.injEq] at h
    subst h
    ext i j
    fin_cases i <;> fin_cases j <;> norm_num [vsurf, solve, vmat, maxDist_ox, williamsMinus, dist_self, dist_ox, dist_xo]
  have hd : s.cov.det ≠ 0 := by rw [hc]; simp
  exact ⟨s, h, hc, hd, ((hs hd 1).2.2 rfl).1⟩

/-! ## The largest distance -/

theorem foldl_max {α : Type} (f : α → ℝ) (l : List α) (a : ℝ) :
    (∀ x ∈ l, f x ≤ l.foldl (fun R x => max R (f x)) a) ∧ a ≤ l.foldl (fun R x => max R (f x)) a ∧
      (l.foldl (fun R x => max R (f x)) a = a ∨ ∃ x ∈ l, l.foldl (fun R x => max R (f x)) a = f x) := by
  induction l generalizing a with
  | nil => simp
  | cons y l ih =>
    obtain ⟨h1, h2, h3⟩ := ih (max a (f y))
    rw [List.foldl_cons]
    refine ⟨?_, le_trans (le_max_left _ _) h2, ?_⟩
    · intro x hx
      rcases List.mem_cons.mp hx with rfl | hx
      · exact le_trans (le_max_right _ _) h2
      · exact h1 x hx
    · rcases h3 with h3 | ⟨x, hx, h3⟩
      · rcases max_choice a (f y) with h | h
        · left; rw [h3, h]
        · right; exact ⟨y, List.mem_cons_self, by rw [h3, h]⟩
      · exact Or.inr ⟨x, List.mem_cons_of_mem _ hx, h3⟩

theorem foldl_max2 {α : Type} (f : α → α → ℝ) (l m : List α) (a : ℝ) :
    (∀ x ∈ l, ∀ y ∈ m, f x y ≤ l.foldl (fun R x => m.foldl (fun R y => max R (f x y)) R) a) ∧
      a ≤ l.foldl (fun R x => m.foldl (fun R y => max R (f x y)) R) a ∧
      (l.foldl (fun R x => m.foldl (fun R y => max R (f x y)) R) a = a ∨
        ∃ x ∈ l, ∃ y ∈ m, l.foldl (fun R x => m.foldl (fun R y => max R (f x y)) R) a = f x y) := by
  induction l generalizing a with
  | nil => simp
  | cons x l ih =>
    obtain ⟨g1, g2, g3⟩ := foldl_max (f x) m a
    obtain ⟨h1, h2, h3⟩ := ih (m.foldl (fun R y => max R (f x y)) a)
    rw [List.foldl_cons]
    refine ⟨?_, le_trans g2 h2, ?_⟩
    · intro z hz y hy
      rcases List.mem_cons.mp hz with rfl | hz
      · exact le_trans (g1 y hy) h2
      · exact h1 z hz y hy
    · rcases h3 with h3 | ⟨z, hz, y, hy, h3⟩
      · rcases g3 with g3 | ⟨y, hy, g3⟩
        · left; rw [h3, g3]
        · right; exact ⟨x, List.mem_cons_self, y, hy, by rw [h3, g3]⟩
      · exact Or.inr ⟨z, List.mem_cons_of_mem _ hz, y, hy, h3⟩

theorem sqd_nonneg (p q : V) : 0 ≤ sqd p q := by unfold sqd; positivity

/-- **`R` is the largest distance of two samples**: no two are farther apart, and there are two with this distance, if there is a sample at
all. -/
theorem C100_range {n : Nat} (pos : Fin n → V) :
    (∀ i j, dist (pos i) (pos j) ≤ maxDist pos) ∧ (0 < n → ∃ i j, maxDist pos = dist (pos i) (pos j)) ∧ (n = 0 → maxDist pos = 0) := by
  obtain ⟨h1, h2, h3⟩ := foldl_max2 (fun i j => sqd (pos i) (pos j)) (List.finRange n) (List.finRange n) 0
  refine ⟨fun i j => Real.sqrt_le_sqrt (h1 i (List.mem_finRange i) j (List.mem_finRange j)), fun hn => ?_, fun hn => ?_⟩
  · rcases h3 with h3 | ⟨i, -, j, -, h3⟩
    · exact ⟨⟨0, hn⟩, ⟨0, hn⟩, by rw [maxDist, h3, dist, sqd_self]⟩
    · exact ⟨i, j, by rw [maxDist, h3, dist]⟩
  · subst hn; simp [maxDist]

theorem maxDist_unique {n : Nat} (pos : Fin n → V) (r : ℝ) (hn : 0 < n) (h1 : ∀ i j, dist (pos i) (pos j) ≤ r)
    (h2 : ∃ i j, r = dist (pos i) (pos j)) : maxDist pos = r := by
  obtain ⟨g1, g2, -⟩ := C100_range pos
  obtain ⟨i, j, hij⟩ := g2 hn
  obtain ⟨k, l, hkl⟩ := h2
  refine le_antisymm (hij ▸ h1 i j) (hkl ▸ g1 k l)

theorem maxDist_perm {n : Nat} (pos : Fin n → V) (σ : Equiv.Perm (Fin n)) : maxDist (pos ∘ σ) = maxDist pos := by
  rcases Nat.eq_zero_or_pos n with hn | hn
  · rw [(C100_range pos).2.2 hn, (C100_range (pos ∘ σ)).2.2 hn]
  · obtain ⟨i, j, hij⟩ := (C100_range pos).2.1 hn
    refine maxDist_unique _ _ hn (fun i j => (C100_range pos).1 _ _) ⟨σ.symm i, σ.symm j, ?_⟩
    simp [hij]

/-- **The order of the samples does not matter**: the predictions and variances at all points are the same. -/
theorem C100_order {K : Kernel} (hK : isKernel K) {n : Nat} (pos : Fin n → V) (value noise : Fin n → ℝ) (σ : Equiv.Perm (Fin n)) :
    ∃ s s', calculate K pos value noise = some s ∧ calculate K (pos ∘ σ) (value ∘ σ) (noise ∘ σ) = some s' ∧
      (s.cov.det ≠ 0 ↔ s'.cov.det ≠ 0) ∧ (s.cov.det ≠ 0 → ∀ p, s'.predict K p = s.predict K p ∧ s'.variance K p = s.variance K p) := by
  refine ⟨_, _, calculate_eq hK pos value noise, calculate_eq hK _ _ _, ?_⟩
  have hc : (vsurf K (pos ∘ σ) (value ∘ σ) (noise ∘ σ)).cov = (vsurf K pos value noise).cov.submatrix σ σ := by
    ext i j
    simp only [vsurf, solve, vmat, maxDist_perm, Matrix.submatrix_apply, Matrix.add_apply, Function.comp_apply, Matrix.diagonal_apply]
    simp [σ.injective.eq_iff]
  have hi : (vsurf K (pos ∘ σ) (value ∘ σ) (noise ∘ σ)).inv = (vsurf K pos value noise).inv.submatrix σ σ := by
    change (vsurf K (pos ∘ σ) (value ∘ σ) (noise ∘ σ)).cov⁻¹ = (vsurf K pos value noise).cov⁻¹.submatrix σ σ
    rw [hc, Matrix.inv_submatrix_equiv]
  refine ⟨by rw [hc, Matrix.det_submatrix_equiv_self], fun _ p => ⟨?_, ?_⟩⟩
  · unfold Surface.predict
    have ha : (vsurf K (pos ∘ σ) (value ∘ σ) (noise ∘ σ)).alpha = (vsurf K pos value noise).alpha ∘ σ := by
      change (vsurf K (pos ∘ σ) (value ∘ σ) (noise ∘ σ)).inv.mulVec (value ∘ σ) = ((vsurf K pos value noise).inv.mulVec value) ∘ σ
      rw [hi, Matrix.submatrix_mulVec_equiv]
      simp [Function.comp_assoc]
    simp only [cux_vsurf, maxDist_perm, ha, Function.comp_apply]
    exact Equiv.sum_comp σ (fun i => K.k p (pos i) (maxDist pos) * (vsurf K pos value noise).alpha i)
  · unfold Surface.variance
    have hu : (vsurf K (pos ∘ σ) (value ∘ σ) (noise ∘ σ)).cux K p = (vsurf K pos value noise).cux K p ∘ σ := by
      funext j; simp [cux_vsurf, maxDist_perm]
    have hr : (vsurf K (pos ∘ σ) (value ∘ σ) (noise ∘ σ)).R = (vsurf K pos value noise).R := maxDist_perm pos σ
    rw [hu, hi, hr, Matrix.submatrix_mulVec_equiv]
    congr 1
    simp only [Function.comp_assoc, Equiv.self_comp_symm, Function.comp_id, Function.comp_apply]
    exact Equiv.sum_comp σ (fun i => (vsurf K pos value noise).cux K p i * ((vsurf K pos value noise).inv.mulVec ((vsurf K pos value noise).cux K p)) i)

/-- **Two samples at the same place need noise**: without, there is no inverse, and nothing is said about the result. -/
theorem C100_duplicates {K : Kernel} (hK : isKernel K) {n : Nat} (pos : Fin n → V) (value noise : Fin n → ℝ) {i j : Fin n} (hij : i ≠ j)
    (hp : pos i = pos j) (hi : noise i = 0) (hj : noise j = 0) :
    ∃ s, calculate K pos value noise = some s ∧ s.cov.det = 0 := by
  refine ⟨_, calculate_eq hK pos value noise, Matrix.det_zero_of_row_eq hij ?_⟩
  funext k
  simp only [vsurf, solve, vmat, Matrix.add_apply, hp]
  congr 1
  simp only [Matrix.diagonal_apply]
  by_cases h1 : i = k <;> by_cases h2 : j = k <;> simp [h1, h2, hi, hj] <;> simp_all

/-! ## Samples with normals -/

/-- The Williams kernels. -/
def isW (K : Kernel) : Prop := K = williamsPlus ∨ K = williamsMinus

/-- The covariance without noise. -/
noncomputable def fmat (K : Kernel) (R : ℝ) {N : Nat} (feat : Fin N → V × Nat) : Matrix (Fin N) (Fin N) ℝ :=
  fun i j => (K.ij (feat i).1 (feat j).1 R (feat i).2 (feat j).2).getD 0

theorem gram_eq {K : Kernel} (hK : isW K) (R : ℝ) {N : Nat} {feat : Fin N → V × Nat} (hf : ∀ i, (feat i).2 ≤ 3) :
    gram K R feat = some (fmat K R feat) := by
  have h : ∀ i j, gramAt K R feat i j = K.ij (feat i).1 (feat j).1 R (feat i).2 (feat j).2 := by
    intro i j
    unfold gramAt
    split
    · rfl
    · exact (C99_indices hK _ _ _ _ _).2.1
  have h2 : ∀ i j, (K.ij (feat i).1 (feat j).1 R (feat i).2 (feat j).2).isSome := fun i j => (C99_indices hK _ _ _ _ _).1.mpr ⟨hf i, hf j⟩
  unfold gram
  simp only [h, h2, implies_true, if_true]
  rfl

theorem feats_le {n m : Nat} (pos : Fin n → V) (npos : Fin m → V) (i : Fin (n + 4 * m)) : (feats pos npos i).2 ≤ 3 := by
  unfold feats
  split
  · exact Nat.zero_le _
  · simp only; omega

/-- The place of a feature of a sample with normal. -/
def nidx {n m : Nat} (i : Fin m) (c : Fin 4) : Fin (n + 4 * m) := ⟨n + 4 * i.1 + c.1, by omega⟩

theorem feats_nidx {n m : Nat} (pos : Fin n → V) (npos : Fin m → V) (i : Fin m) (c : Fin 4) : feats pos npos (nidx i c) = (npos i, c.1) := by
  have hc := c.2
  have e1 : (n + 4 * i.1 + c.1 - n) / 4 = i.1 := by omega
  have e2 : (n + 4 * i.1 + c.1 - n) % 4 = c.1 := by omega
  simp only [feats, nidx, e1, e2]
  rw [dif_neg (by omega)]

theorem feats_vidx {n m : Nat} (pos : Fin n → V) (npos : Fin m → V) (i : Fin n) :
    feats pos npos (⟨i.1, by omega⟩ : Fin (n + 4 * m)) = (pos i, 0) := by
  simp only [feats]
  rw [dif_pos i.2]

theorem targets_nidx {n m : Nat} (value : Fin n → ℝ) (normal : Fin m → V) (i : Fin m) (c : Fin 3) :
    targets value normal (nidx i c.succ) = normal i c ∧ targets value normal (nidx i 0) = 0 := by
  have hc := c.2
  have e1 : (n + 4 * i.1 + (c.1 + 1) - n) / 4 = i.1 := by omega
  have e2 : (n + 4 * i.1 + (c.1 + 1) - n) % 4 = c.1 + 1 := by omega
  have e3 : (n + 4 * i.1 + 0 - n) % 4 = 0 := by omega
  constructor
  · simp only [targets, nidx, Fin.val_succ, e1, e2]
    rw [dif_neg (by omega), dif_neg (by omega)]
    simp
  · simp only [targets, nidx, Fin.val_zero, e3]
    rw [dif_neg (by omega)]
    simp

theorem targets_vidx {n m : Nat} (value : Fin n → ℝ) (normal : Fin m → V) (i : Fin n) :
    targets value normal (⟨i.1, by omega⟩ : Fin (n + 4 * m)) = value i := by
  simp only [targets]
  rw [dif_pos i.2]

/-- The prediction at a feature that is a value. -/
theorem predict_feat {K : Kernel} {N : Nat} (feat : Fin N → V × Nat) (R : ℝ) (n y : Fin N → ℝ) (hdet : (fmat K R feat + Matrix.diagonal n).det ≠ 0)
    {i : Fin N} {p : V} (hi : feat i = (p, 0)) :
    (solve feat R (fmat K R feat + Matrix.diagonal n) y).predict K p =
      y i - n i * (solve feat R (fmat K R feat + Matrix.diagonal n) y).alpha i := by
  rw [← solve_row feat R (fmat K R feat) n y hdet i]
  unfold Surface.predict
  refine Finset.sum_congr rfl fun j _ => ?_
  congr 1
  simp only [Surface.cux, fmat, hi]
  rfl

/-- A kernel as a function of its first point, with the derivatives in its second. -/
theorem ij_deriv (p q : V) (R : ℝ) (c : Fin 3) {b : Nat} (hb : b ≤ 3) :
    HasDerivAt (fun t => (williamsPlus.ij (Function.update p c t) q R 0 b).getD 0) ((williamsPlus.ij p q R (c.1 + 1) b).getD 0) (p c) := by
  rcases Nat.eq_zero_or_pos b with h0 | h0
  · subst h0
    obtain ⟨⟨v, hv, hd⟩, -⟩ := C99_first (Or.inl rfl) p q R c.2
    have : williamsPlus.ij p q R (c.1 + 1) 0 = some v := by simp [Kernel.ij, hv]
    rw [this]
    simpa [Kernel.ij] using hd
  · obtain ⟨v, hv, hd, -⟩ := C99_second_plus p q R c.2 (show b - 1 < 3 by omega)
    have : williamsPlus.ij p q R (c.1 + 1) b = some v := by
      simp only [Kernel.ij]
      rw [if_neg (by omega), if_neg (by omega), if_neg (by omega), Nat.add_sub_cancel, hv]
    rw [this]
    have e : (fun t => (williamsPlus.ij (Function.update p c t) q R 0 b).getD 0) =
        fun t => (williamsPlus.dj (Function.update p c t) q R (b - 1)).getD 0 := by
      funext t
      simp only [Kernel.ij]
      rw [if_neg (by omega), if_pos trivial]
    rw [e]
    exact hd

theorem predict_deriv {N : Nat} (feat : Fin N → V × Nat) (hf : ∀ i, (feat i).2 ≤ 3) (R : ℝ) (n y : Fin N → ℝ)
    (hdet : (fmat williamsPlus R feat + Matrix.diagonal n).det ≠ 0) {i : Fin N} {p : V} {c : Fin 3} (hi : feat i = (p, c.1 + 1)) :
    HasDerivAt (fun t => (solve feat R (fmat williamsPlus R feat + Matrix.diagonal n) y).predict williamsPlus (Function.update p c t))
      (y i - n i * (solve feat R (fmat williamsPlus R feat + Matrix.diagonal n) y).alpha i) (p c) := by
  rw [← solve_row feat R (fmat williamsPlus R feat) n y hdet i]
  unfold Surface.predict
  refine HasDerivAt.fun_sum fun j _ => ?_
  refine (HasDerivAt.mul_const ?_ _)
  have := ij_deriv p (feat j).1 R c (hf j)
  simp only [Surface.cux, fmat, hi]
  exact this

theorem noiseC_nidx {n m : Nat} (noise : Fin n → ℝ) (nn : ℝ) (i : Fin m) (c : Fin 4) :
    noiseC noise nn (nidx (n := n) i c) = if 4 * i.1 + c.1 < m then nn * nn else 0 := by
  have e : n + 4 * i.1 + c.1 - n = 4 * i.1 + c.1 := by omega
  unfold noiseC
  rw [dif_neg (by simp only [nidx]; omega)]
  simp only [nidx, e]

theorem noiseN_nidx {m : Nat} (noise nn : ℝ) (i : Fin m) (c : Fin 4) (hi : m ≤ 4 * i.1) :
    noiseN noise nn (nidx (n := 0) i c) = 0 := by
  unfold noiseN
  rw [if_neg (by simp only [nidx]; omega)]

theorem combined_eq {K : Kernel} (hK : isW K) {n m : Nat} (npos normal : Fin m → V) (pos : Fin n → V) (value noise : Fin n → ℝ)
    (normalNoise scale : ℝ) :
    calculateCombined K npos normal pos value noise normalNoise scale = some (solve (feats pos npos) (maxDist (allPos pos npos))
      (fmat K (maxDist (allPos pos npos)) (feats pos npos) + Matrix.diagonal (noiseC noise normalNoise)) (targets value normal)) := by
  unfold calculateCombined
  simp only [gram_eq hK _ (feats_le pos npos), Option.map_some]

theorem normals_eq {K : Kernel} (hK : isW K) {m : Nat} (npos normal : Fin m → V) (noise normalNoise scale : ℝ) :
    calculateNormals K npos normal noise normalNoise scale = some (solve (feats (n := 0) (fun i => i.elim0) npos) (maxDist npos)
      (fmat K (maxDist npos) (feats (fun i => i.elim0) npos) + Matrix.diagonal (noiseN noise normalNoise)) (targets (fun i => i.elim0) normal)) := by
  unfold calculateNormals
  simp only [gram_eq hK _ (feats_le _ npos), Option.map_some]

/-- **A surface goes through its samples, with their normals.** For GaussianImplicitSurface3DCombined without noise for the normals, with
all samples, values and normals: `Calculate` does not throw, and if the covariance has an inverse, for both Williams kernels the prediction is the value
at a sample without noise, and zero at a sample with normal; with WilliamsPlusKernel the derivatives of the prediction there are the parts of the normal. -/
theorem C101_combined {K : Kernel} (hK : isW K) {n m : Nat} (npos normal : Fin m → V) (pos : Fin n → V) (value noise : Fin n → ℝ) (scale : ℝ) :
    ∃ s, calculateCombined K npos normal pos value noise 0 scale = some s ∧ (s.cov.det ≠ 0 →
      (∀ i, noise i = 0 → s.predict K (pos i) = value i) ∧ (∀ i, s.predict K (npos i) = 0) ∧
      (K = williamsPlus → ∀ i c, HasDerivAt (fun t => s.predict K (Function.update (npos i) c t)) (normal i c) (npos i c))) := by
  refine ⟨_, combined_eq hK npos normal pos value noise 0 scale, fun hdet => ⟨fun i hi => ?_, fun i => ?_, ?_⟩⟩
  · rw [predict_feat (feats pos npos) _ _ _ hdet (feats_vidx pos npos i), targets_vidx]
    simp [noiseC, hi]
  · rw [predict_feat (feats pos npos) _ _ _ hdet (feats_nidx pos npos i 0), (targets_nidx value normal i 0).2]
    rw [noiseC_nidx]
    simp
  · rintro rfl i c
    refine (predict_deriv (feats pos npos) (feats_le pos npos) _ _ _ hdet (feats_nidx pos npos i c.succ)).congr_deriv ?_
    rw [(targets_nidx value normal i c).1]
    rw [noiseC_nidx]
    simp

/-- The same for GaussianImplicitSurface3DNormals, without noise. -/
theorem C101_normals {K : Kernel} (hK : isW K) {m : Nat} (npos normal : Fin m → V) (scale : ℝ) :
    ∃ s, calculateNormals K npos normal 0 0 scale = some s ∧ (s.cov.det ≠ 0 →
      (∀ i, s.predict K (npos i) = 0) ∧
      (K = williamsPlus → ∀ i c, HasDerivAt (fun t => s.predict K (Function.update (npos i) c t)) (normal i c) (npos i c))) := by
  have hn : ∀ i : Fin (0 + 4 * m), noiseN 0 0 i = 0 := by intro i; simp [noiseN]
  refine ⟨_, normals_eq hK npos normal 0 0 scale, fun hdet => ⟨fun i => ?_, ?_⟩⟩
  · rw [predict_feat _ _ _ _ hdet (feats_nidx _ npos i 0), (targets_nidx _ normal i 0).2, hn]
    simp
  · rintro rfl i c
    refine (predict_deriv _ (feats_le _ npos) _ _ _ hdet (feats_nidx _ npos i c.succ)).congr_deriv ?_
    rw [(targets_nidx _ normal i c).1, hn]
    simp

/-- **Most samples get no noise**: the loop that adds it runs over the number of samples, while there are four rows for each. Whatever the noises are,
the surface goes exactly through all samples from the one with the number `(m + 3) / 4` on, with their normals. -/
theorem C101_noise_false {K : Kernel} (hK : isW K) {m : Nat} (npos normal : Fin m → V) (noise normalNoise scale : ℝ) :
    ∃ s, calculateNormals K npos normal noise normalNoise scale = some s ∧ (s.cov.det ≠ 0 → ∀ i : Fin m, m ≤ 4 * i.1 →
      s.predict K (npos i) = 0 ∧
      (K = williamsPlus → ∀ c, HasDerivAt (fun t => s.predict K (Function.update (npos i) c t)) (normal i c) (npos i c))) := by
  refine ⟨_, normals_eq hK npos normal noise normalNoise scale, fun hdet i hi => ⟨?_, ?_⟩⟩
  · rw [predict_feat _ _ _ _ hdet (feats_nidx _ npos i 0), (targets_nidx _ normal i 0).2]
    rw [noiseN_nidx _ _ _ _ hi]
    simp
  · rintro rfl c
    refine (predict_deriv _ (feats_le _ npos) _ _ _ hdet (feats_nidx _ npos i c.succ)).congr_deriv ?_
    rw [(targets_nidx _ normal i c).1]
    rw [noiseN_nidx _ _ _ _ hi]
    simp

/-- **GaussianKernel cannot be used with normals**: `Calculate` throws if there is a sample with normal. -/
theorem C101_gaussian {n m : Nat} (hm : 0 < m) (npos normal : Fin m → V) (pos : Fin n → V) (value noise : Fin n → ℝ) (l normalNoise scale : ℝ) :
    calculateCombined (gaussian l) npos normal pos value noise normalNoise scale = none := by
  have hg : gram (gaussian l) (maxDist (allPos pos npos)) (feats pos npos) = none := by
    refine if_neg ?_
    intro h
    have := h (nidx ⟨0, hm⟩ 0) (nidx ⟨0, hm⟩ 1)
    unfold gramAt at this
    rw [if_pos (by rw [Fin.le_def]; simp [nidx]), feats_nidx, feats_nidx] at this
    simp [Kernel.ij, Kernel.dj, swap, gaussian] at this
  simp only [calculateCombined, hg, Option.map_none]

/-- The covariance of the next example. -/
def exMat : Matrix (Fin 5) (Fin 5) ℝ := !![1, 6, 12, 0, 0; 6, 1, 0, 0, 0; 12, 0, -6, 0, 0; 0, 0, 0, -6, 0; 0, 0, 0, 0, -6]

/-- Its inverse. -/
noncomputable def exInv : Matrix (Fin 5) (Fin 5) ℝ :=
  !![-1/11, 6/11, -2/11, 0, 0; 6/11, -25/11, 12/11, 0, 0; -2/11, 12/11, -35/66, 0, 0; 0, 0, 0, -1/6, 0; 0, 0, 0, 0, -1/6]

theorem exMat_inv : exMat * exInv = 1 := by
  ext i j
  fin_cases i <;> fin_cases j <;> simp [exMat, exInv, Matrix.mul_apply, Fin.sum_univ_five, Matrix.one_apply] <;> norm_num

/-- A sample at the origin with the value 5, and one at (1, 0, 0) with the normal (0, 0, 1): the covariance has an inverse. -/
example : ∃ s, calculateCombined williamsPlus ![unitX] ![![0, 0, 1]] ![origin] ![5] ![0] 0 1 = some s ∧ s.cov.det ≠ 0 := by
  obtain ⟨s, h, -⟩ := C101_combined (K := williamsPlus) (Or.inl rfl) ![unitX] ![![0, 0, 1]] ![origin] ![5] ![0] 1
  refine ⟨s, h, ?_⟩
  rw [combined_eq (Or.inl rfl), Option.some.injEq] at h
  subst h
  have hR : maxDist (allPos ![origin] ![unitX]) = 1 := by
    simp [maxDist, allPos, List.finRange_succ, sqd_self, sqd_ox, sqd_comm unitX origin]
  refine left_ne_zero_of_mul (b := Matrix.det exInv) ?_
  rw [← Matrix.det_mul, show _ * exInv = 1 from ?_]
  · simp
  · rw [← exMat_inv]
    congr 1
    ext i j
    fin_cases i <;> fin_cases j <;>
      simp [solve, fmat, hR, feats, noiseC, exMat, Kernel.ij, Kernel.di, Kernel.dj, Kernel.didj, swap, williamsPlus, dist_self, dist_ox, dist_xo,
        origin, unitX, Matrix.diagonal] <;> norm_num

end Simox.Krn
