import Verif.Inv.Lemmas

/-!
# Properties of pseudo inverses (C54)
-/

namespace Simox.Inv

open Matrix Spec

/-! ## Lemmas about weights and scaling -/

theorem scaled_eq {m n : Nat} (r : Fin m → ℝ) (A : Matrix (Fin m) (Fin n) ℝ) (e : Fin m → ℝ)
    (x : Fin n → ℝ) : (fun i => r i * ((A *ᵥ x) i - e i)) = (diagonal r * A) *ᵥ x - diagonal r *ᵥ e := by
  funext i
  rw [← Matrix.mulVec_mulVec]
  simp only [Pi.sub_apply, Matrix.mulVec_diagonal]
  ring

theorem cost_eq {n : Nat} {w : Fin n → ℝ} (hw : ∀ i, 0 < w i) (x : Fin n → ℝ) :
    cost w x = sq (fun i => Real.sqrt (w i) * x i) := by
  rw [sq_eq]
  refine Finset.sum_congr rfl fun i _ => ?_
  rw [mul_pow, Real.sq_sqrt (hw i).le]

theorem weight_cancel {n : Nat} {w : Fin n → ℝ} (hw : ∀ i, 0 < w i) (x : Fin n → ℝ) :
    diagonal (fun i => Real.sqrt (1 / w i)) *ᵥ (fun i => Real.sqrt (w i) * x i) = x := by
  funext i
  rw [Matrix.mulVec_diagonal, ← mul_assoc, ← Real.sqrt_mul (by have := hw i; positivity),
    one_div_mul_cancel (hw i).ne', Real.sqrt_one, one_mul]

theorem weight_cancel' {n : Nat} {w : Fin n → ℝ} (hw : ∀ i, 0 < w i) (x : Fin n → ℝ) :
    (fun i => Real.sqrt (w i) * (diagonal (fun i => Real.sqrt (1 / w i)) *ᵥ x) i) = x := by
  funext i
  rw [Matrix.mulVec_diagonal, ← mul_assoc, ← Real.sqrt_mul (hw i).le, mul_one_div_cancel (hw i).ne',
    Real.sqrt_one, one_mul]

section
variable {m n : Nat} {A : Matrix (Fin m) (Fin n) ℝ} {r : Fin m → ℝ} {w : Fin n → ℝ}
  {X : Matrix (Fin n) (Fin m) ℝ} {tol : ℝ}

theorem near_weighted (hw : ∀ i, 0 < w i)
    (h : Near (diagonal r * A * diagonal (fun i => Real.sqrt (1 / w i))) X tol) (e : Fin m → ℝ)
    (y : Fin n → ℝ) :
    error r A e ((diagonal (fun i => Real.sqrt (1 / w i)) * X * diagonal r) *ᵥ e) ≤
      error r A e y + tol * Real.sqrt (cost w y) := by
  have := h.least (diagonal r *ᵥ e) (fun i => Real.sqrt (w i) * y i)
  unfold error
  rw [scaled_eq, scaled_eq, cost_eq hw, ← len_eq]
  rw [← Matrix.mulVec_mulVec (fun i => Real.sqrt (w i) * y i), weight_cancel hw] at this
  simpa only [Matrix.mulVec_mulVec, Matrix.mul_assoc] using this

theorem exact_weighted (hw : ∀ i, 0 < w i)
    (h : Near (diagonal r * A * diagonal (fun i => Real.sqrt (1 / w i))) X tol)
    (hA : diagonal r * A * diagonal (fun i => Real.sqrt (1 / w i)) * X *
      (diagonal r * A * diagonal (fun i => Real.sqrt (1 / w i))) =
        diagonal r * A * diagonal (fun i => Real.sqrt (1 / w i))) (e : Fin m → ℝ) (y : Fin n → ℝ) :
    error r A e ((diagonal (fun i => Real.sqrt (1 / w i)) * X * diagonal r) *ᵥ e) ≤ error r A e y ∧
      (error r A e y = error r A e ((diagonal (fun i => Real.sqrt (1 / w i)) * X * diagonal r) *ᵥ e) →
        y ≠ (diagonal (fun i => Real.sqrt (1 / w i)) * X * diagonal r) *ᵥ e →
        cost w ((diagonal (fun i => Real.sqrt (1 / w i)) * X * diagonal r) *ᵥ e) < cost w y) := by
  obtain ⟨h1, h2⟩ := h.exact hA (diagonal r *ᵥ e) (fun i => Real.sqrt (w i) * y i)
  rw [← Matrix.mulVec_mulVec (fun i => Real.sqrt (w i) * y i), weight_cancel hw] at h1 h2
  have e1 : (diagonal r * A * diagonal (fun i => Real.sqrt (1 / w i))) *ᵥ (X *ᵥ (diagonal r *ᵥ e)) =
      (diagonal r * A) *ᵥ ((diagonal (fun i => Real.sqrt (1 / w i)) * X * diagonal r) *ᵥ e) := by
    simp only [Matrix.mulVec_mulVec, Matrix.mul_assoc]
  rw [e1] at h1 h2
  unfold error
  rw [scaled_eq, scaled_eq]
  refine ⟨h1, fun heq hne => ?_⟩
  have h3 := h2 heq (fun hc => hne ?_)
  · rw [cost_eq hw, cost_eq hw, ← len_sq, ← len_sq]
    have e2 : (fun i => Real.sqrt (w i) *
        ((diagonal (fun i => Real.sqrt (1 / w i)) * X * diagonal r) *ᵥ e) i) = X *ᵥ (diagonal r *ᵥ e) := by
      rw [← weight_cancel' hw (X *ᵥ (diagonal r *ᵥ e))]
      simp only [Matrix.mulVec_mulVec, Matrix.mul_assoc]
    rw [e2]
    have := len_nonneg (X *ᵥ (diagonal r *ᵥ e))
    exact pow_lt_pow_left₀ h3 this two_ne_zero
  · rw [← weight_cancel hw y, hc]
    simp only [Matrix.mulVec_mulVec, Matrix.mul_assoc]

theorem unit_weights : diagonal (fun i : Fin n => Real.sqrt (1 / (fun _ => (1:ℝ)) i)) = 1 := by
  simp

end

/-! ## C54 -/

/-- **C54.** `getPseudoInverse(A, tol)`: the motion it gives for an error `e` leaves an error that no other
motion `y` beats by more than `tol` times the length of `y`. -/
theorem C54_near_least_error (svds : Svds) {m n : Nat} (A : Matrix (Fin m) (Fin n) ℝ) (tol : ℝ)
    (ht : 0 ≤ tol) (e : Fin m → ℝ) (y : Fin n → ℝ) :
    len (A *ᵥ (pseudoInverse svds A tol *ᵥ e) - e) ≤ len (A *ᵥ y - e) + tol * len y :=
  (pseudoInverse_near svds A ht).least e y

/-- **C54.** Also next to singularities the motion is at most `1 / tol` times as long as the error. -/
theorem C54_bounded (svds : Svds) {m n : Nat} (A : Matrix (Fin m) (Fin n) ℝ) (tol : ℝ)
    (ht : 0 < tol) (e : Fin m → ℝ) : len (pseudoInverse svds A tol *ᵥ e) ≤ len e / tol := by
  rw [le_div_iff₀ ht, mul_comm]
  exact (pseudoInverse_near svds A ht.le).small e

/-- **C54.** If no positive singular value of the matrix is below the tolerance, the motion leaves the least
error of all, and every other motion that leaves as little is longer. -/
theorem C54_least_error (svds : Svds) {m n : Nat} (A : Matrix (Fin m) (Fin n) ℝ) (tol : ℝ) (ht : 0 ≤ tol)
    (hr : Regular A tol) (e : Fin m → ℝ) (y : Fin n → ℝ) :
    len (A *ᵥ (pseudoInverse svds A tol *ᵥ e) - e) ≤ len (A *ᵥ y - e) ∧
      (len (A *ᵥ y - e) = len (A *ᵥ (pseudoInverse svds A tol *ᵥ e) - e) →
        y ≠ pseudoInverse svds A tol *ᵥ e → len (pseudoInverse svds A tol *ᵥ e) < len y) :=
  (pseudoInverse_near svds A ht).exact (regular_axa svds A ht hr) e y

/-- **C54.** `getPseudoInverseDamped(A, lam)`: the motion is the only one with the least sum of the squares
of the error that is left and of `lam` times its length. -/
theorem C54_damped (svds : Svds) {m n : Nat} (A : Matrix (Fin m) (Fin n) ℝ) (lam : ℝ) (hl : lam ≠ 0)
    (e : Fin m → ℝ) (y : Fin n → ℝ) (hy : y ≠ pseudoInverseDamped svds A lam *ᵥ e) :
    len (A *ᵥ (pseudoInverseDamped svds A lam *ᵥ e) - e) ^ 2 +
        (lam * len (pseudoInverseDamped svds A lam *ᵥ e)) ^ 2 <
      len (A *ᵥ y - e) ^ 2 + (lam * len y) ^ 2 := by
  simp only [mul_pow, len_sq]
  refine damped_best A hl e _ ?_ y hy
  have := congrArg (· *ᵥ e) (damped_normal svds A hl)
  simpa only [Matrix.add_mulVec, Matrix.smul_mulVec, Matrix.mulVec_mulVec, Matrix.mul_assoc] using this

/-- **C54.** A `JacobiProvider` throws exactly when it is to use the singular value decomposition with a
joint weight that is not positive. -/
theorem C54_throws (svds : Svds) {m n : Nat} (p : Provider n) (dbl : Bool) (A : Matrix (Fin m) (Fin n) ℝ)
    (param : ℝ) (reg : Option (Fin m → ℝ)) :
    inverse svds p dbl A param reg = none ↔
      p.method = .svd ∧ ∃ w, p.weights = some w ∧ ∃ i, w i ≤ 0 := by
  unfold inverse inverseInternal
  rw [Option.map_eq_none_iff]
  cases hm : p.method <;> cases hw : p.weights <;> simp

/-- **C54.** A `JacobiProvider` that uses the singular value decomposition, with positive joint weights and
any scaling of the rows: no motion `y` beats the scaled error of its motion by more than the tolerance times
the weighted length of `y`. -/
theorem C54_provider_svd (svds : Svds) {m n : Nat} (p : Provider n) (hm : p.method = .svd) (dbl : Bool)
    (A : Matrix (Fin m) (Fin n) ℝ) (param : ℝ) (hp : 0 ≤ param) (reg : Option (Fin m → ℝ))
    (hw : ∀ w, p.weights = some w → ∀ i, 0 < w i) :
    ∃ X, inverse svds p dbl A param reg = some X ∧ ∀ e y,
      error (reg.getD fun _ => 1) A e (X *ᵥ e) ≤ error (reg.getD fun _ => 1) A e y +
        (if param = 0 then 1 / 100000 else param) * Real.sqrt (cost (p.weights.getD fun _ => 1) y) := by
  have ht : (0:ℝ) ≤ if param ≠ 0 then param else 1 / 100000 := by split <;> [exact hp; norm_num]
  have e0 : (if param = 0 then 1 / 100000 else param : ℝ) = if param ≠ 0 then param else 1 / 100000 := by
    by_cases h : param = 0 <;> simp [h]
  rw [e0]
  unfold inverse inverseInternal
  rw [hm]
  cases hpw : p.weights with
  | none =>
    simp only [Option.map_some, Option.some.injEq, exists_eq_left', Option.getD_none]
    intro e y
    have := near_weighted (r := reg.getD fun _ => 1) (A := A) (w := fun _ => (1:ℝ)) (tol := _)
      (fun _ => one_pos) (by rw [unit_weights, Matrix.mul_one]; exact pseudoInverse_near svds _ ht) e y
    rw [unit_weights, Matrix.one_mul] at this
    exact this
  | some w =>
    have hw' := hw w hpw
    have hn : ¬ ∃ i, w i ≤ 0 := fun ⟨i, hi⟩ => absurd (hw' i) (not_lt.2 hi)
    simp only [if_neg hn, Option.map_some, Option.some.injEq, exists_eq_left', Option.getD_some]
    intro e y
    exact near_weighted hw' (pseudoInverse_near svds _ ht) e y

/-- **C54.** If moreover no positive singular value of the scaled and weighted matrix is below the
tolerance, the motion has the least scaled error of all, and every other motion with as little costs more. -/
theorem C54_provider_svd_exact (svds : Svds) {m n : Nat} (p : Provider n) (hm : p.method = .svd) (dbl : Bool)
    (A : Matrix (Fin m) (Fin n) ℝ) (param : ℝ) (hp : 0 ≤ param) (reg : Option (Fin m → ℝ))
    (hw : ∀ w, p.weights = some w → ∀ i, 0 < w i)
    (hr : Regular (Matrix.of fun i j => reg.getD (fun _ => 1) i * A i j / Real.sqrt (p.weights.getD (fun _ => 1) j))
      (if param = 0 then 1 / 100000 else param)) :
    ∃ X, inverse svds p dbl A param reg = some X ∧ ∀ e y,
      error (reg.getD fun _ => 1) A e (X *ᵥ e) ≤ error (reg.getD fun _ => 1) A e y ∧
      (error (reg.getD fun _ => 1) A e y = error (reg.getD fun _ => 1) A e (X *ᵥ e) → y ≠ X *ᵥ e →
        cost (p.weights.getD fun _ => 1) (X *ᵥ e) < cost (p.weights.getD fun _ => 1) y) := by
  have ht : (0:ℝ) ≤ if param ≠ 0 then param else 1 / 100000 := by split <;> [exact hp; norm_num]
  have e0 : (if param = 0 then 1 / 100000 else param : ℝ) = if param ≠ 0 then param else 1 / 100000 := by
    by_cases h : param = 0 <;> simp [h]
  rw [e0] at hr
  have e1 : (Matrix.of fun i j =>
      reg.getD (fun _ => 1) i * A i j / Real.sqrt (p.weights.getD (fun _ => 1) j)) =
      diagonal (reg.getD fun _ => 1) * A *
        diagonal (fun i => Real.sqrt (1 / p.weights.getD (fun _ => 1) i)) := by
    ext i j
    simp [Matrix.mul_diagonal, Matrix.diagonal_mul, div_eq_mul_inv]
  rw [e1] at hr
  unfold inverse inverseInternal
  rw [hm]
  cases hpw : p.weights with
  | none =>
    rw [hpw, Option.getD_none] at hr
    simp only [Option.map_some, Option.some.injEq, exists_eq_left', Option.getD_none]
    intro e y
    have hr' := hr
    rw [unit_weights, Matrix.mul_one] at hr'
    have := exact_weighted (r := reg.getD fun _ => 1) (A := A) (w := fun _ => (1:ℝ)) (tol := _)
      (X := pseudoInverse svds (diagonal (reg.getD fun _ => 1) * A) (if param ≠ 0 then param else 1 / 100000))
      (fun _ => one_pos) (by rw [unit_weights, Matrix.mul_one]; exact pseudoInverse_near svds _ ht)
      (by rw [unit_weights, Matrix.mul_one]; exact regular_axa svds _ ht hr') e y
    rw [unit_weights, Matrix.one_mul] at this
    exact this
  | some w =>
    rw [hpw, Option.getD_some] at hr
    have hw' := hw w hpw
    have hn : ¬ ∃ i, w i ≤ 0 := fun ⟨i, hi⟩ => absurd (hw' i) (not_lt.2 hi)
    simp only [if_neg hn, Option.map_some, Option.some.injEq, exists_eq_left', Option.getD_some]
    intro e y
    exact exact_weighted hw' (pseudoInverse_near svds _ ht) (regular_axa svds _ ht hr) e y

/-- **C54.** A `JacobiProvider` with the damped method: its motion is the only one with the least sum of the
squares of the scaled error and of `lambda` times its length (joint weights are ignored). `lambda` is the
parameter; if that is zero, the provider's setting for floats and 1 for doubles. -/
theorem C54_provider_damped (svds : Svds) {m n : Nat} (p : Provider n) (hm : p.method = .svdDamped)
    (dbl : Bool) (A : Matrix (Fin m) (Fin n) ℝ) (param lam : ℝ) (reg : Option (Fin m → ℝ))
    (hlam : lam = if param ≠ 0 then param else if dbl then 1 else p.dampedSvdLambda) (hl : lam ≠ 0) :
    ∃ X, inverse svds p dbl A param reg = some X ∧ ∀ e y, y ≠ X *ᵥ e →
      error (reg.getD fun _ => 1) A e (X *ᵥ e) ^ 2 + (lam * len (X *ᵥ e)) ^ 2 <
        error (reg.getD fun _ => 1) A e y ^ 2 + (lam * len y) ^ 2 := by
  unfold inverse inverseInternal
  rw [hm]
  simp only [Option.map_some, Option.some.injEq, exists_eq_left']
  intro e y hy
  rw [← hlam] at hy ⊢
  rw [← Matrix.mulVec_mulVec] at hy ⊢
  unfold error
  rw [scaled_eq, scaled_eq]
  exact C54_damped svds _ lam hl _ y hy

/-- **C54.** A `JacobiProvider` with the transposed matrix, positive joint weights, a matrix of full rank
and any scaling without zeros: its motion removes the error, and every other motion that does costs
more. -/
theorem C54_provider_transpose (svds : Svds) {m n : Nat} (p : Provider n) (hm : p.method = .transpose)
    (dbl : Bool) (A : Matrix (Fin m) (Fin n) ℝ) (hA : FullRank A) (param : ℝ) (reg : Option (Fin m → ℝ))
    (hreg : ∀ r, reg = some r → ∀ i, r i ≠ 0) (hw : ∀ w, p.weights = some w → ∀ i, 0 < w i) :
    ∃ X, inverse svds p dbl A param reg = some X ∧ ∀ e,
      A *ᵥ (X *ᵥ e) = e ∧ ∀ y, A *ᵥ y = e → y ≠ X *ᵥ e →
        cost (p.weights.getD fun _ => 1) (X *ᵥ e) < cost (p.weights.getD fun _ => 1) y := by
  have hr : ∀ i, reg.getD (fun _ => 1) i ≠ 0 := by
    intro i
    cases h : reg with
    | none => simp
    | some r => exact hreg r h i
  have hwp : ∀ i, 0 < p.weights.getD (fun _ => 1) i := by
    intro i
    cases h : p.weights with
    | none => simp
    | some w => exact hw w h i
  generalize hrd : reg.getD (fun _ => 1) = r at hr
  generalize hwd : p.weights.getD (fun _ => 1) = w at hwp
  have hinv : (diagonal w)⁻¹ = diagonal (fun i => 1 / w i) := by
    refine Matrix.inv_eq_right_inv ?_
    rw [Matrix.diagonal_mul_diagonal, ← Matrix.diagonal_one]
    congr 1; funext i
    exact mul_one_div_cancel (hwp i).ne'
  have hform : inverse svds p dbl A param reg = some (diagonal (fun i => 1 / w i) * (diagonal r * A)ᵀ *
      ((diagonal r * A) * diagonal (fun i => 1 / w i) * (diagonal r * A)ᵀ)⁻¹ * diagonal r) := by
    unfold inverse inverseInternal
    rw [hm, hrd]
    cases hpw : p.weights with
    | none =>
      rw [hpw, Option.getD_none] at hwd
      subst hwd
      have : diagonal (fun i : Fin n => 1 / (fun _ => (1:ℝ)) i) = 1 := by simp
      simp only [Option.map_some, this, Matrix.one_mul, Matrix.mul_one]
    | some w' =>
      rw [hpw, Option.getD_some] at hwd
      subst hwd
      simp only [Option.map_some, hinv]
  refine ⟨_, hform, fun e => ?_⟩
  generalize hB : diagonal r * A = B
  generalize hG : B * diagonal (fun i => 1 / w i) * Bᵀ = G
  have hBr : FullRank B := by
    intro y hy
    rw [← hB, Matrix.transpose_mul, ← Matrix.mulVec_mulVec, Matrix.diagonal_transpose] at hy
    have := hA _ hy
    funext i
    have h := congrFun this i
    rw [Matrix.mulVec_diagonal] at h
    exact (mul_eq_zero.1 h).resolve_left (hr i)
  have hdet : IsUnit G.det := by
    rw [isUnit_iff_ne_zero]
    intro h0
    obtain ⟨v, hv, hv0⟩ := Matrix.exists_mulVec_eq_zero_iff.2 h0
    refine hv (hBr v ?_)
    have h1 : (Bᵀ *ᵥ v) ⬝ᵥ (diagonal (fun i => 1 / w i) *ᵥ (Bᵀ *ᵥ v)) = 0 := by
      rw [dot_mulVec, Matrix.transpose_transpose, Matrix.mulVec_mulVec, Matrix.mulVec_mulVec, hG, hv0,
        dotProduct_zero]
    have h2 : ∀ i ∈ Finset.univ, (Bᵀ *ᵥ v) i * (diagonal (fun i => 1 / w i) *ᵥ (Bᵀ *ᵥ v)) i = 0 := by
      refine (Finset.sum_eq_zero_iff_of_nonneg fun i _ => ?_).1 h1
      rw [Matrix.mulVec_diagonal]
      have := hwp i
      have h3 := mul_self_nonneg ((Bᵀ *ᵥ v) i)
      have : 0 ≤ 1 / w i * ((Bᵀ *ᵥ v) i * (Bᵀ *ᵥ v) i) := by positivity
      linarith
    funext i
    have h3 := h2 i (Finset.mem_univ i)
    rw [Matrix.mulVec_diagonal] at h3
    have := (hwp i).ne'
    by_contra hne
    simp only [Pi.zero_apply] at hne
    have h4 : 1 / w i ≠ 0 := one_div_ne_zero this
    exact absurd h3 (mul_ne_zero hne (mul_ne_zero h4 hne))
  have hrr : ∀ a b : Fin m → ℝ, diagonal r *ᵥ a = diagonal r *ᵥ b → a = b := by
    intro a b h
    funext i
    have := congrFun h i
    rw [Matrix.mulVec_diagonal, Matrix.mulVec_diagonal] at this
    exact mul_left_cancel₀ (hr i) this
  have hsol : A *ᵥ ((diagonal (fun i => 1 / w i) * Bᵀ * G⁻¹ * diagonal r) *ᵥ e) = e := by
    apply hrr
    rw [Matrix.mulVec_mulVec, Matrix.mulVec_mulVec]
    congr 1
    calc diagonal r * A * (diagonal (fun i => 1 / w i) * Bᵀ * G⁻¹ * diagonal r)
        = (diagonal r * A) * diagonal (fun i => 1 / w i) * Bᵀ * G⁻¹ * diagonal r := by
          simp only [Matrix.mul_assoc]
      _ = G * G⁻¹ * diagonal r := by rw [hB, hG]
      _ = diagonal r := by rw [Matrix.mul_nonsing_inv _ hdet, Matrix.one_mul]
  refine ⟨hsol, fun y hy hne => ?_⟩
  generalize hx : (diagonal (fun i => 1 / w i) * Bᵀ * G⁻¹ * diagonal r) *ᵥ e = x at hsol hne ⊢
  obtain ⟨z, rfl⟩ : ∃ z, y = x + z := ⟨y - x, by abel⟩
  have hz : A *ᵥ z = 0 := by
    rw [Matrix.mulVec_add, hsol] at hy
    simpa using hy
  have hz0 : z ≠ 0 := fun h => hne (by rw [h, add_zero])
  have horth : ∑ i, w i * x i * z i = 0 := by
    have e1 : ∑ i, w i * x i * z i = (Bᵀ *ᵥ (G⁻¹ *ᵥ (diagonal r *ᵥ e))) ⬝ᵥ z := by
      refine Finset.sum_congr rfl fun i _ => ?_
      congr 1
      rw [← hx]
      simp only [← Matrix.mulVec_mulVec]
      rw [Matrix.mulVec_diagonal, ← mul_assoc, mul_one_div_cancel (hwp i).ne', one_mul]
    rw [e1, dot_mulVec, Matrix.transpose_transpose, ← hB, ← Matrix.mulVec_mulVec, hz, Matrix.mulVec_zero,
      dotProduct_zero]
  have hcost : cost w (x + z) = cost w x + 2 * ∑ i, w i * x i * z i + cost w z := by
    unfold cost
    rw [Finset.mul_sum, ← Finset.sum_add_distrib, ← Finset.sum_add_distrib]
    refine Finset.sum_congr rfl fun i _ => ?_
    simp only [Pi.add_apply]; ring
  have hpos : 0 < cost w z := by
    rw [cost_eq hwp]
    refine lt_of_le_of_ne (sq_nonneg' _) fun h => hz0 ?_
    have := sq_eq_zero.1 h.symm
    rw [← weight_cancel hwp z, this, Matrix.mulVec_zero]
  rw [hcost, horth]
  linarith

/-! ## Concrete cases -/

/-- The Jacobian of a plane arm with three joints. -/
noncomputable def J23 : Matrix (Fin 2) (Fin 3) ℝ := !![1, 2, 0; 0, 1, 1]

theorem J23_rank : FullRank J23 := by
  intro y hy
  have h0 := congrFun hy 0
  have h2 := congrFun hy 2
  simp [J23, Matrix.mulVec, dotProduct, Fin.sum_univ_two] at h0 h2
  funext i
  fin_cases i
  · exact h0
  · exact h2

example : ∃ svds : Svds, ∀ (e : Fin 2 → ℝ) (y : Fin 3 → ℝ),
    len (J23 *ᵥ (pseudoInverse svds J23 (1 / 100000) *ᵥ e) - e) ≤ len (J23 *ᵥ y - e) + 1 / 100000 * len y :=
  ⟨exists_svds.some, fun e y => C54_near_least_error _ J23 _ (by norm_num) e y⟩

/-- Its positive singular values are above `10⁻⁵`. -/
theorem J23_regular : Regular J23 (1 / 100000) := by
  rintro s ⟨hs, v, hv, h⟩
  by_contra hlt
  push Not at hlt
  have h0 := congrFun h 0
  have h1 := congrFun h 1
  have h2 := congrFun h 2
  simp [J23, Matrix.mulVec, dotProduct, Fin.sum_univ_two, Fin.sum_univ_three] at h0 h1 h2
  have hs2 : s ^ 2 ≤ 1 / 100 := by nlinarith
  have hs0 : 0 < s ^ 2 := by positivity
  -- with `t = s²`: `(1 - t) v₀ = -2 v₁`, `(1 - t) v₂ = -v₁`, `(5 - t) v₁ = -2 v₀ - v₂`
  have k0 : (1 - s ^ 2) * v 0 = -2 * v 1 := by linarith
  have k2 : (1 - s ^ 2) * v 2 = -v 1 := by linarith
  have k1 : (5 - s ^ 2) * v 1 = -(2 * v 0 + v 2) := by linarith
  have k : (1 - s ^ 2) * (5 - s ^ 2) * v 1 = 5 * v 1 := by
    calc (1 - s ^ 2) * (5 - s ^ 2) * v 1 = (1 - s ^ 2) * ((5 - s ^ 2) * v 1) := by ring
      _ = -(2 * ((1 - s ^ 2) * v 0) + (1 - s ^ 2) * v 2) := by rw [k1]; ring
      _ = 5 * v 1 := by rw [k0, k2]; ring
  have hv1 : v 1 = 0 := by
    have : (s ^ 2 * (s ^ 2 - 6)) * v 1 = 0 := by linarith
    rcases mul_eq_zero.1 this with h | h
    · rcases mul_eq_zero.1 h with h | h
      · exact absurd h hs0.ne'
      · nlinarith
    · exact h
  have hne : (1 - s ^ 2) ≠ 0 := by nlinarith
  apply hv
  funext i
  fin_cases i
  · rw [hv1, mul_zero] at k0; exact (mul_eq_zero.1 k0).resolve_left hne
  · exact hv1
  · rw [hv1, neg_zero] at k2; exact (mul_eq_zero.1 k2).resolve_left hne

example (svds : Svds) := C54_least_error svds J23 _ (by norm_num) J23_regular ![1, 2] ![3, 4, 5]

example (svds : Svds) := C54_bounded svds J23 (1 / 100000) (by norm_num) ![1, 2]

example (svds : Svds) := C54_provider_svd svds ⟨.svd, some ![1, 2, 3], 0⟩ rfl true J23 0 (le_refl _)
  (some ![2, 3]) (by intro w hw i; cases hw; fin_cases i <;> norm_num)

example (svds : Svds) := C54_provider_svd_exact svds ⟨.svd, none, 0⟩ rfl true J23 0 (le_refl _) none
  (by intro w hw; cases hw)
  (by
    have : (Matrix.of fun i j => (none : Option (Fin 2 → ℝ)).getD (fun _ => 1) i * J23 i j /
        Real.sqrt ((none : Option (Fin 3 → ℝ)).getD (fun _ => 1) j)) = J23 := by
      ext i j; simp
    have h := J23_regular
    rw [← this] at h
    rw [if_pos rfl]
    simpa only [this] using h)

example (svds : Svds) := C54_provider_transpose svds ⟨.transpose, some ![1, 2, 3], 0⟩ rfl true J23 J23_rank 0
  (some ![2, 3]) (by intro r hr i; cases hr; fin_cases i <;> norm_num)
  (by intro w hw i; cases hw; fin_cases i <;> norm_num)

example (svds : Svds) := C54_provider_damped svds ⟨.svdDamped, none, 1 / 10⟩ rfl false J23 0 (1 / 10)
  (some ![2, 3]) (by simp) (by norm_num)

end Simox.Inv
