import Verif.Inv.Spec
import Verif.Inv.Svd
import Mathlib.Analysis.InnerProductSpace.PiL2
import Mathlib.Tactic.Positivity
import Mathlib.Tactic.FieldSimp
import Mathlib.Tactic.Linarith

/-!
# Lemmas about pseudo inverses
-/

namespace Simox.Inv

open Matrix Spec

/-! ## Lengths -/

/-- The square of the length. -/
def sq {m : Nat} (v : Fin m → ℝ) : ℝ := v ⬝ᵥ v

theorem sq_eq {m : Nat} (v : Fin m → ℝ) : sq v = ∑ i, v i ^ 2 := by
  unfold sq dotProduct
  exact Finset.sum_congr rfl fun i _ => (pow_two _).symm

theorem sq_nonneg' {m : Nat} (v : Fin m → ℝ) : 0 ≤ sq v := by
  rw [sq_eq]; exact Finset.sum_nonneg fun i _ => sq_nonneg _

theorem sq_eq_zero {m : Nat} {v : Fin m → ℝ} : sq v = 0 ↔ v = 0 := dotProduct_self_eq_zero

theorem len_eq {m : Nat} (v : Fin m → ℝ) : len v = Real.sqrt (sq v) := by rw [sq_eq]; rfl

theorem len_nonneg {m : Nat} (v : Fin m → ℝ) : 0 ≤ len v := Real.sqrt_nonneg _

theorem len_sq {m : Nat} (v : Fin m → ℝ) : len v ^ 2 = sq v := by
  rw [len_eq, Real.sq_sqrt (sq_nonneg' v)]

theorem len_norm {m : Nat} (v : Fin m → ℝ) : len v = ‖WithLp.toLp 2 v‖ := by
  rw [EuclideanSpace.norm_eq]
  simp [len]

theorem len_add {m : Nat} (v w : Fin m → ℝ) : len (v + w) ≤ len v + len w := by
  simp only [len_norm, WithLp.toLp_add]
  exact norm_add_le _ _

theorem len_le {m k : Nat} {v : Fin m → ℝ} {w : Fin k → ℝ} (h : sq v ≤ sq w) : len v ≤ len w := by
  rw [len_eq, len_eq]; exact Real.sqrt_le_sqrt h

theorem len_smul {m : Nat} (c : ℝ) (v : Fin m → ℝ) : len (c • v) = |c| * len v := by
  simp only [len_norm, WithLp.toLp_smul, norm_smul, Real.norm_eq_abs]

theorem len_le_smul {m k : Nat} {v : Fin m → ℝ} {w : Fin k → ℝ} {c : ℝ} (hc : 0 ≤ c)
    (h : sq v ≤ c ^ 2 * sq w) : len v ≤ c * len w := by
  have : len v ≤ len (c • w) := by
    refine len_le (h.trans (le_of_eq ?_))
    simp only [sq, smul_dotProduct, dotProduct_smul, smul_eq_mul]; ring
  rwa [len_smul, abs_of_nonneg hc] at this

theorem dot_mulVec {m n : Nat} (A : Matrix (Fin m) (Fin n) ℝ) (x : Fin n → ℝ) (y : Fin m → ℝ) :
    (A *ᵥ x) ⬝ᵥ y = x ⬝ᵥ (Aᵀ *ᵥ y) := by
  rw [Matrix.dotProduct_mulVec, Matrix.vecMul_transpose]

/-- Pythagoras for a symmetric projection. -/
theorem proj_split {m : Nat} {Q : Matrix (Fin m) (Fin m) ℝ} (h1 : Qᵀ = Q) (h2 : Q * Q = Q)
    (x y : Fin m → ℝ) : sq (Q *ᵥ x - y) = sq (Q *ᵥ x - Q *ᵥ y) + sq (Q *ᵥ y - y) := by
  have e : Q *ᵥ x - y = (Q *ᵥ x - Q *ᵥ y) + (Q *ᵥ y - y) := by abel
  have o : (Q *ᵥ x - Q *ᵥ y) ⬝ᵥ (Q *ᵥ y - y) = 0 := by
    rw [← Matrix.mulVec_sub, dot_mulVec, h1, Matrix.mulVec_sub, Matrix.mulVec_mulVec, h2, sub_self,
      dotProduct_zero]
  have o' : (Q *ᵥ y - y) ⬝ᵥ (Q *ᵥ x - Q *ᵥ y) = 0 := by rw [dotProduct_comm]; exact o
  conv_lhs => rw [e]
  unfold sq
  rw [add_dotProduct, dotProduct_add, dotProduct_add, o, o']
  ring

theorem iso_sq {m k : Nat} {U : Matrix (Fin m) (Fin k) ℝ} (hU : Uᵀ * U = 1) (y : Fin k → ℝ) :
    sq (U *ᵥ y) = sq y := by
  unfold sq
  rw [dot_mulVec, Matrix.mulVec_mulVec, hU, Matrix.one_mulVec]

theorem bessel {m k : Nat} {U : Matrix (Fin m) (Fin k) ℝ} (hU : Uᵀ * U = 1) (y : Fin m → ℝ) :
    sq (Uᵀ *ᵥ y) ≤ sq y := by
  have h1 : (U * Uᵀ)ᵀ = U * Uᵀ := by rw [Matrix.transpose_mul, Matrix.transpose_transpose]
  have h2 : (U * Uᵀ) * (U * Uᵀ) = U * Uᵀ := by
    calc (U * Uᵀ) * (U * Uᵀ) = U * (Uᵀ * U) * Uᵀ := by simp only [Matrix.mul_assoc]
      _ = U * Uᵀ := by rw [hU, Matrix.mul_one]
  have := proj_split h1 h2 0 y
  have e1 : sq (Uᵀ *ᵥ y) = sq ((U * Uᵀ) *ᵥ y) := by
    rw [← Matrix.mulVec_mulVec, iso_sq hU]
  have neg : ∀ v : Fin m → ℝ, sq (-v) = sq v := fun v => by simp [sq]
  rw [Matrix.mulVec_zero, zero_sub, zero_sub, neg, neg] at this
  rw [e1, this]
  have := sq_nonneg' ((U * Uᵀ) *ᵥ y - y)
  linarith

theorem diag_sq_le {k : Nat} {d : Fin k → ℝ} {c : ℝ} (h : ∀ i, d i ^ 2 ≤ c) (y : Fin k → ℝ) :
    sq (diagonal d *ᵥ y) ≤ c * sq y := by
  simp only [sq_eq, Matrix.mulVec_diagonal, Finset.mul_sum]
  refine Finset.sum_le_sum fun i _ => ?_
  rw [mul_pow]
  exact mul_le_mul_of_nonneg_right (h i) (sq_nonneg _)

/-! ## What the truncated pseudo inverse satisfies -/

/-- Three of Penrose's four conditions, and the fourth up to the tolerance. -/
structure Near {m n : Nat} (A : Matrix (Fin m) (Fin n) ℝ) (X : Matrix (Fin n) (Fin m) ℝ) (tol : ℝ) :
    Prop where
  xax : X * A * X = X
  ax : (A * X)ᵀ = A * X
  xa : (X * A)ᵀ = X * A
  axa : ∀ y, len (A *ᵥ y - A *ᵥ (X *ᵥ (A *ᵥ y))) ≤ tol * len y
  small : ∀ e, tol * len (X *ᵥ e) ≤ len e

section
variable {m n k : Nat} {U : Matrix (Fin m) (Fin k) ℝ} {V : Matrix (Fin n) (Fin k) ℝ}

theorem uv_mul {l : Nat} {W : Matrix (Fin l) (Fin k) ℝ} (hV : Vᵀ * V = 1) (c d : Fin k → ℝ) :
    (U * diagonal c * Vᵀ) * (V * diagonal d * Wᵀ) = U * diagonal (fun i => c i * d i) * Wᵀ := by
  calc (U * diagonal c * Vᵀ) * (V * diagonal d * Wᵀ)
      = U * diagonal c * (Vᵀ * V) * diagonal d * Wᵀ := by simp only [Matrix.mul_assoc]
    _ = U * (diagonal c * diagonal d) * Wᵀ := by rw [hV, Matrix.mul_one]; simp only [Matrix.mul_assoc]
    _ = _ := by rw [Matrix.diagonal_mul_diagonal]

theorem uv_transpose (c : Fin k → ℝ) : (U * diagonal c * Vᵀ)ᵀ = V * diagonal c * Uᵀ := by
  rw [Matrix.transpose_mul, Matrix.transpose_mul, Matrix.transpose_transpose, Matrix.diagonal_transpose,
    Matrix.mul_assoc]

theorem uv_sq_le (hU : Uᵀ * U = 1) (hV : Vᵀ * V = 1) {c : Fin k → ℝ} {b : ℝ} (hb : 0 ≤ b)
    (h : ∀ i, c i ^ 2 ≤ b) (y : Fin n → ℝ) : sq ((U * diagonal c * Vᵀ) *ᵥ y) ≤ b * sq y := by
  rw [← Matrix.mulVec_mulVec, ← Matrix.mulVec_mulVec, iso_sq hU]
  exact (diag_sq_le h _).trans (mul_le_mul_of_nonneg_left (bessel hV y) hb)

end

open Classical in
theorem pseudoInverse_form (svds : Svds) {m n : Nat} (A : Matrix (Fin m) (Fin n) ℝ) (tol : ℝ) :
    ∃ (k : Nat) (U : Matrix (Fin m) (Fin k) ℝ) (V : Matrix (Fin n) (Fin k) ℝ) (sv : Fin k → ℝ),
      Uᵀ * U = 1 ∧ Vᵀ * V = 1 ∧ (∀ i, 0 ≤ sv i) ∧ A = U * diagonal sv * Vᵀ ∧
      pseudoInverse svds A tol = V * diagonal (fun i => if sv i > tol then 1 / sv i else 0) * Uᵀ :=
  ⟨_, (svds m n A).U, (svds m n A).V, (svds m n A).sv, (svds m n A).hU, (svds m n A).hV,
    (svds m n A).nonneg, (svds m n A).eq, rfl⟩

theorem pseudoInverseDamped_form (svds : Svds) {m n : Nat} (A : Matrix (Fin m) (Fin n) ℝ) (lam : ℝ) :
    ∃ (k : Nat) (U : Matrix (Fin m) (Fin k) ℝ) (V : Matrix (Fin n) (Fin k) ℝ) (sv : Fin k → ℝ),
      Uᵀ * U = 1 ∧ Vᵀ * V = 1 ∧ (∀ i, 0 ≤ sv i) ∧ A = U * diagonal sv * Vᵀ ∧
      pseudoInverseDamped svds A lam =
        V * diagonal (fun i => sv i / (sv i * sv i + lam * lam)) * Uᵀ :=
  ⟨_, (svds m n A).U, (svds m n A).V, (svds m n A).sv, (svds m n A).hU, (svds m n A).hV,
    (svds m n A).nonneg, (svds m n A).eq, rfl⟩

theorem pseudoInverse_near (svds : Svds) {m n : Nat} (A : Matrix (Fin m) (Fin n) ℝ) {tol : ℝ}
    (ht : 0 ≤ tol) : Near A (pseudoInverse svds A tol) tol := by
  classical
  obtain ⟨k, U, V, sv, hU, hV, hnn, hA, hX⟩ := pseudoInverse_form svds A tol
  let d : Fin k → ℝ := fun i => if sv i > tol then 1 / sv i else 0
  replace hX : pseudoInverse svds A tol = V * diagonal d * Uᵀ := by rw [hX]
  have hpos : ∀ i, sv i > tol → sv i ≠ 0 := fun i h => (lt_of_le_of_lt ht h).ne'
  have e1 : (fun i => d i * sv i * d i) = d := by
    funext i
    by_cases h : sv i > tol
    · have := hpos i h
      simp only [d, if_pos h]; field_simp
    · simp [d, if_neg h]
  rw [hX]
  generalize hd : V * diagonal d * Uᵀ = X
  have hax : A * X = U * diagonal (fun i => sv i * d i) * Uᵀ := by
    rw [← hd]
    conv_lhs => rw [hA]
    exact uv_mul hV _ _
  have hxa : X * A = V * diagonal (fun i => d i * sv i) * Vᵀ := by
    rw [← hd]
    conv_lhs => rw [hA]
    exact uv_mul hU _ _
  refine ⟨?_, ?_, ?_, ?_, ?_⟩
  · rw [hxa, ← hd, uv_mul hV, e1]
  · rw [hax, uv_transpose]
  · rw [hxa, uv_transpose]
  · intro y
    have : A *ᵥ y - A *ᵥ (X *ᵥ (A *ᵥ y)) =
        (U * diagonal (fun i => sv i - sv i * d i * sv i) * Vᵀ) *ᵥ y := by
      rw [Matrix.mulVec_mulVec, Matrix.mulVec_mulVec, ← Matrix.sub_mulVec]
      congr 1
      have h3 : A * X * A = U * diagonal (fun i => sv i * d i * sv i) * Vᵀ := by
        rw [hax]
        conv_lhs => rw [hA]
        exact uv_mul hU _ _
      rw [h3]
      conv_lhs => rw [hA]
      rw [← Matrix.sub_mul, ← Matrix.mul_sub, Matrix.diagonal_sub]
    rw [this]
    refine len_le_smul ht (uv_sq_le hU hV (sq_nonneg _) (fun i => ?_) y)
    by_cases h : sv i > tol
    · have := hpos i h
      simp only [d, if_pos h]
      have : sv i - sv i * (1 / sv i) * sv i = 0 := by field_simp; ring
      rw [this]; simpa using sq_nonneg tol
    · simp only [d, if_neg h, mul_zero, zero_mul, sub_zero]
      have := hnn i
      push Not at h
      nlinarith
  · intro e
    rcases ht.eq_or_lt with h0 | h0
    · rw [← h0, zero_mul]; exact len_nonneg _
    · have : len (X *ᵥ e) ≤ (1 / tol) * len e := by
        rw [← hd]
        refine len_le_smul (by positivity) (uv_sq_le hV hU (sq_nonneg _) (fun i => ?_) e)
        by_cases h : sv i > tol
        · simp only [d, if_pos h]
          have h1 : 0 < sv i := h0.trans h
          have : 1 / sv i ≤ 1 / tol := one_div_le_one_div_of_le h0 h.le
          have h2 : 0 ≤ 1 / sv i := by positivity
          nlinarith
        · simp only [d, if_neg h]
          rw [zero_pow two_ne_zero]; exact sq_nonneg _
      calc tol * len (X *ᵥ e) ≤ tol * ((1 / tol) * len e) := mul_le_mul_of_nonneg_left this ht
        _ = len e := by field_simp

/-- If all singular values are above the tolerance nothing is truncated. -/
theorem regular_axa (svds : Svds) {m n : Nat} (A : Matrix (Fin m) (Fin n) ℝ) {tol : ℝ} (ht : 0 ≤ tol)
    (hr : Regular A tol) : A * pseudoInverse svds A tol * A = A := by
  classical
  obtain ⟨k, U, V, sv, hU, hV, hnn, hA, hX⟩ := pseudoInverse_form svds A tol
  let d : Fin k → ℝ := fun i => if sv i > tol then 1 / sv i else 0
  replace hX : pseudoInverse svds A tol = V * diagonal d * Uᵀ := by rw [hX]
  have e1 : (fun i => sv i * d i * sv i) = sv := by
    funext i
    by_cases h : sv i > tol
    · have := (lt_of_le_of_lt ht h).ne'
      simp only [d, if_pos h]; field_simp
    · simp only [d, if_neg h, mul_zero, zero_mul]
      by_contra hne
      refine h (hr (sv i) ⟨lt_of_le_of_ne (hnn i) hne, V *ᵥ Pi.single i 1, ?_, ?_⟩)
      · intro h0
        have : Vᵀ *ᵥ (V *ᵥ Pi.single i (1:ℝ)) = 0 := by rw [h0, Matrix.mulVec_zero]
        rw [Matrix.mulVec_mulVec, hV, Matrix.one_mulVec] at this
        have := congrFun this i
        simp at this
      · have hAA : Aᵀ * A = V * diagonal (fun i => sv i * sv i) * Vᵀ := by
          conv_lhs => rw [hA, uv_transpose]
          exact uv_mul hU _ _
        rw [Matrix.mulVec_mulVec, hAA, Matrix.mulVec_mulVec, Matrix.mul_assoc _ Vᵀ, hV, Matrix.mul_one,
          ← Matrix.mulVec_mulVec]
        have : diagonal (fun i => sv i * sv i) *ᵥ Pi.single i (1:ℝ) = (sv i ^ 2) • Pi.single i 1 := by
          ext j
          rw [Matrix.mulVec_diagonal]
          by_cases e : j = i
          · subst e; simp [pow_two]
          · simp [e]
        rw [this, Matrix.mulVec_smul]
  have hax : A * (V * diagonal d * Uᵀ) = U * diagonal (fun i => sv i * d i) * Uᵀ := by
    conv_lhs => rw [hA]
    exact uv_mul hV _ _
  rw [hX, hax]
  have : U * diagonal (fun i => sv i * d i) * Uᵀ * A =
      U * diagonal (fun i => sv i * d i * sv i) * Vᵀ := by
    conv_lhs => rw [hA]
    exact uv_mul hU _ _
  rw [this, e1, ← hA]

namespace Near

variable {m n : Nat} {A : Matrix (Fin m) (Fin n) ℝ} {X : Matrix (Fin n) (Fin m) ℝ} {tol : ℝ}

theorem ax_idem (h : Near A X tol) : A * X * (A * X) = A * X := by
  calc A * X * (A * X) = A * (X * A * X) := by simp only [Matrix.mul_assoc]
    _ = A * X := by rw [h.xax]

theorem xa_idem (h : Near A X tol) : X * A * (X * A) = X * A := by
  calc X * A * (X * A) = (X * A * X) * A := by simp only [Matrix.mul_assoc]
    _ = X * A := by rw [h.xax]

/-- Close to the least error. -/
theorem least (h : Near A X tol) (e : Fin m → ℝ) (y : Fin n → ℝ) :
    len (A *ᵥ (X *ᵥ e) - e) ≤ len (A *ᵥ y - e) + tol * len y := by
  have h1 : len (A *ᵥ (X *ᵥ e) - e) ≤ len (A *ᵥ (X *ᵥ (A *ᵥ y)) - e) := by
    refine len_le ?_
    have := proj_split h.ax h.ax_idem (A *ᵥ y) e
    simp only [← Matrix.mulVec_mulVec] at this ⊢
    rw [this]
    have := sq_nonneg' (A *ᵥ X *ᵥ A *ᵥ y - A *ᵥ X *ᵥ e)
    linarith
  have neg : ∀ v : Fin m → ℝ, len (-v) = len v := fun v => by
    have := len_smul (-1) v
    simpa using this
  have h2 : len (A *ᵥ (X *ᵥ (A *ᵥ y)) - e) ≤ len (A *ᵥ y - e) + len (A *ᵥ y - A *ᵥ (X *ᵥ (A *ᵥ y))) := by
    have e1 : A *ᵥ (X *ᵥ (A *ᵥ y)) - e = (A *ᵥ y - e) + -(A *ᵥ y - A *ᵥ (X *ᵥ (A *ᵥ y))) := by abel
    rw [e1]
    refine (len_add _ _).trans ?_
    rw [neg]
  have := h.axa y
  linarith

/-- Least error exactly, and least length among all motions with least error. -/
theorem exact (h : Near A X tol) (hA : A * X * A = A) (e : Fin m → ℝ) (y : Fin n → ℝ) :
    len (A *ᵥ (X *ᵥ e) - e) ≤ len (A *ᵥ y - e) ∧
      (len (A *ᵥ y - e) = len (A *ᵥ (X *ᵥ e) - e) → y ≠ X *ᵥ e → len (X *ᵥ e) < len y) := by
  have hAy : A *ᵥ (X *ᵥ (A *ᵥ y)) = A *ᵥ y := by
    rw [Matrix.mulVec_mulVec, Matrix.mulVec_mulVec, hA]
  have hs : sq (A *ᵥ y - e) = sq (A *ᵥ y - A *ᵥ (X *ᵥ e)) + sq (A *ᵥ (X *ᵥ e) - e) := by
    have := proj_split h.ax h.ax_idem (A *ᵥ y) e
    simp only [← Matrix.mulVec_mulVec] at this
    rwa [hAy] at this
  refine ⟨len_le (by rw [hs]; have := sq_nonneg' (A *ᵥ y - A *ᵥ (X *ᵥ e)); linarith), fun heq hne => ?_⟩
  have h0 : sq (A *ᵥ y - A *ᵥ (X *ᵥ e)) = 0 := by
    have := congrArg (· ^ 2) heq
    simp only [len_sq] at this
    linarith
  have h1 : A *ᵥ y = A *ᵥ (X *ᵥ e) := sub_eq_zero.1 (sq_eq_zero.1 h0)
  have h2 : X *ᵥ (A *ᵥ y) = X *ᵥ e := by
    rw [h1, Matrix.mulVec_mulVec, Matrix.mulVec_mulVec, h.xax]
  have h3 := proj_split h.xa h.xa_idem 0 y
  have neg : ∀ v : Fin n → ℝ, sq (-v) = sq v := fun v => by simp [sq]
  rw [Matrix.mulVec_zero, zero_sub, zero_sub, neg, neg, ← Matrix.mulVec_mulVec, h2] at h3
  rw [len_eq, len_eq]
  refine Real.sqrt_lt_sqrt (sq_nonneg' _) ?_
  have : 0 < sq (X *ᵥ e - y) :=
    lt_of_le_of_ne (sq_nonneg' _) (fun h => hne (sub_eq_zero.1 (sq_eq_zero.1 h.symm)).symm)
  linarith

end Near

/-! ## The damped pseudo inverse -/

theorem damped_normal (svds : Svds) {m n : Nat} (A : Matrix (Fin m) (Fin n) ℝ) {lam : ℝ} (hl : lam ≠ 0) :
    Aᵀ * A * pseudoInverseDamped svds A lam + (lam ^ 2) • pseudoInverseDamped svds A lam = Aᵀ := by
  obtain ⟨k, U, V, sv, hU, hV, hnn, hA, hX⟩ := pseudoInverseDamped_form svds A lam
  let d : Fin k → ℝ := fun i => sv i / (sv i * sv i + lam * lam)
  replace hX : pseudoInverseDamped svds A lam = V * diagonal d * Uᵀ := hX
  have hAt : Aᵀ = V * diagonal sv * Uᵀ := by
    conv_lhs => rw [hA]
    exact uv_transpose _
  have hAA : Aᵀ * A = V * diagonal (fun i => sv i * sv i) * Vᵀ := by
    rw [hAt]
    conv_lhs => rw [hA]
    exact uv_mul hU _ _
  rw [hX, hAA, uv_mul hV, ← Matrix.smul_mul, ← Matrix.mul_smul, ← Matrix.add_mul, ← Matrix.mul_add,
    ← Matrix.diagonal_smul, Matrix.diagonal_add, hAt]
  have e : (fun i => sv i * sv i * d i + (lam ^ 2 • d) i) = sv := by
    funext i
    have : sv i * sv i + lam * lam ≠ 0 := by
      have h1 := mul_self_nonneg (sv i)
      have h2 := mul_self_pos.2 hl
      linarith
    simp only [d, Pi.smul_apply, smul_eq_mul]
    field_simp
  rw [e]

/-- A motion that solves the normal equation is the only best compromise. -/
theorem damped_best {m n : Nat} (A : Matrix (Fin m) (Fin n) ℝ) {lam : ℝ} (hl : lam ≠ 0)
    (e : Fin m → ℝ) (x : Fin n → ℝ) (hx : Aᵀ *ᵥ (A *ᵥ x) + (lam ^ 2) • x = Aᵀ *ᵥ e) (y : Fin n → ℝ)
    (hy : y ≠ x) : sq (A *ᵥ x - e) + lam ^ 2 * sq x < sq (A *ᵥ y - e) + lam ^ 2 * sq y := by
  have hp : 0 < sq (y - x) := lt_of_le_of_ne (sq_nonneg' _)
    (fun h => hy (sub_eq_zero.1 (sq_eq_zero.1 h.symm)))
  obtain ⟨z, rfl⟩ : ∃ z, y = x + z := ⟨y - x, by abel⟩
  have ez : x + z - x = z := by abel
  rw [ez] at hp
  have e1 : A *ᵥ (x + z) - e = (A *ᵥ x - e) + A *ᵥ z := by rw [Matrix.mulVec_add]; abel
  have o : (A *ᵥ z) ⬝ᵥ (A *ᵥ x - e) + lam ^ 2 * (z ⬝ᵥ x) = 0 := by
    have : Aᵀ *ᵥ (A *ᵥ x - e) + lam ^ 2 • x = 0 := by
      rw [Matrix.mulVec_sub, sub_add_eq_add_sub, hx, sub_self]
    have h2 := congrArg (z ⬝ᵥ ·) this
    simp only [dotProduct_add, dotProduct_smul, dotProduct_zero, smul_eq_mul] at h2
    rw [dot_mulVec]
    exact h2
  have c1 := dotProduct_comm (A *ᵥ x - e) (A *ᵥ z)
  have c2 := dotProduct_comm x z
  have hAz := sq_nonneg' (A *ᵥ z)
  have hl2 : 0 < lam ^ 2 := by positivity
  have := mul_pos hl2 hp
  rw [e1]
  unfold sq at *
  simp only [add_dotProduct, dotProduct_add]
  rw [c1, c2]
  nlinarith

end Simox.Inv
