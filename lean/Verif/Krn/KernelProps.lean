import Verif.Krn.Model
import Mathlib.Analysis.Calculus.Deriv.Pow
import Mathlib.Analysis.Calculus.Deriv.Shift
import Mathlib.Analysis.Calculus.Deriv.Slope
import Mathlib.Tactic.FieldSimp
import Mathlib.Tactic.Linarith

/-!
# Derivatives of kernels: C99
-/

namespace Simox.Krn

/-! ## One variable -/

theorem sqrt_deriv {a t : ℝ} (h : t ^ 2 + a ≠ 0) : HasDerivAt (fun t => Real.sqrt (t ^ 2 + a)) (t / Real.sqrt (t ^ 2 + a)) t := by
  have h1 : HasDerivAt (fun t : ℝ => t ^ 2 + a) (2 * t) t := by
    simpa using (hasDerivAt_pow 2 t).add_const a
  have h2 := h1.sqrt h
  convert h2 using 1
  field_simp

theorem shift {f : ℝ → ℝ} {f' a x : ℝ} (h : HasDerivAt f f' (x - a)) : HasDerivAt (fun t => f (t - a)) f' x :=
  h.comp_sub_const x a

theorem mul_abs_deriv : HasDerivAt (fun t : ℝ => t * |t|) 0 0 := by
  rw [hasDerivAt_iff_tendsto_slope_zero]
  have h : Filter.Tendsto (fun x : ℝ => |x|) (nhdsWithin 0 {0}ᶜ) (nhds 0) := by
    have := (continuous_abs (G := ℝ)).tendsto 0
    rw [abs_zero] at this
    exact this.mono_left nhdsWithin_le_nhds
  refine h.congr' ?_
  filter_upwards [self_mem_nhdsWithin] with x hx
  have hx' : x ≠ 0 := hx
  simp [hx']

/-- `t r`, where `r` is the distance. -/
theorem mul_sqrt_deriv {a : ℝ} (ha : 0 ≤ a) (t : ℝ) :
    HasDerivAt (fun t => t * Real.sqrt (t ^ 2 + a)) (Real.sqrt (t ^ 2 + a) + t ^ 2 / Real.sqrt (t ^ 2 + a)) t := by
  by_cases h : t ^ 2 + a = 0
  · have ht : t = 0 := by nlinarith [sq_nonneg t]
    have ha0 : a = 0 := by nlinarith [sq_nonneg t]
    subst ht ha0
    simp only [add_zero, Real.sqrt_sq_eq_abs, abs_zero]
    simpa using mul_abs_deriv
  · have := (hasDerivAt_id t).mul (sqrt_deriv h)
    refine (this.congr_deriv ?_)
    simp; ring

/-- `r^3`. -/
theorem cube_deriv {a : ℝ} (ha : 0 ≤ a) (t : ℝ) :
    HasDerivAt (fun t => Real.sqrt (t ^ 2 + a) ^ 3) (3 * t * Real.sqrt (t ^ 2 + a)) t := by
  have e : (fun t => Real.sqrt (t ^ 2 + a) ^ 3) = fun t => t * (t * Real.sqrt (t ^ 2 + a)) + a * Real.sqrt (t ^ 2 + a) := by
    funext t
    have := Real.sq_sqrt (show 0 ≤ t ^ 2 + a by positivity)
    calc Real.sqrt (t ^ 2 + a) ^ 3 = Real.sqrt (t ^ 2 + a) ^ 2 * Real.sqrt (t ^ 2 + a) := by ring
      _ = _ := by rw [this]; ring
  rw [e]
  have h1 := (hasDerivAt_id t).mul (mul_sqrt_deriv ha t)
  by_cases h : t ^ 2 + a = 0
  · have ht : t = 0 := by nlinarith [sq_nonneg t]
    have ha0 : a = 0 := by nlinarith [sq_nonneg t]
    subst ht ha0
    refine (h1.congr_deriv (by simp)).congr_of_eventuallyEq (Filter.Eventually.of_forall fun x => ?_)
    simp
  · have h2 := h1.add ((sqrt_deriv h).const_mul a)
    refine h2.congr_deriv ?_
    have h0 : Real.sqrt (t ^ 2 + a) ≠ 0 := by rw [Real.sqrt_ne_zero']; positivity
    have := Real.sq_sqrt (show 0 ≤ t ^ 2 + a by positivity)
    simp only [id_eq, one_mul]
    field_simp
    rw [this]
    ring

/-- `c r` for a part `c` of the difference that does not change. -/
theorem const_mul_sqrt_deriv {a c : ℝ} (ha : c ^ 2 ≤ a) (t : ℝ) :
    HasDerivAt (fun t => c * Real.sqrt (t ^ 2 + a)) (c * t / Real.sqrt (t ^ 2 + a)) t := by
  by_cases h : t ^ 2 + a = 0
  · have hc : c = 0 := by nlinarith [sq_nonneg t, sq_nonneg c]
    subst hc
    simpa using hasDerivAt_const t (0 : ℝ)
  · refine ((sqrt_deriv h).const_mul c).congr_deriv ?_
    ring

/-! ## Points -/

/-- The part of the squared distance that does not depend on an element. -/
def rest (p q : V) (i : Fin 3) : ℝ := sqd p q - (p i - q i) ^ 2

theorem rest_nonneg (p q : V) (i : Fin 3) : 0 ≤ rest p q i := by
  unfold rest sqd
  fin_cases i <;> simp <;> nlinarith [sq_nonneg (p 0 - q 0), sq_nonneg (p 1 - q 1), sq_nonneg (p 2 - q 2)]

theorem rest_ge (p q : V) {i j : Fin 3} (h : i ≠ j) : (p j - q j) ^ 2 ≤ rest p q i := by
  unfold rest sqd
  fin_cases i <;> fin_cases j <;> simp at h ⊢ <;> nlinarith [sq_nonneg (p 0 - q 0), sq_nonneg (p 1 - q 1), sq_nonneg (p 2 - q 2)]

theorem sqd_update (p q : V) (i : Fin 3) (t : ℝ) : sqd (Function.update p i t) q = (t - q i) ^ 2 + rest p q i := by
  unfold rest sqd
  fin_cases i <;> simp <;> ring

theorem sqd_comm (p q : V) : sqd p q = sqd q p := by unfold sqd; ring

theorem dist_comm (p q : V) : dist p q = dist q p := by unfold dist; rw [sqd_comm]

theorem dist_update (p q : V) (i : Fin 3) (t : ℝ) : dist (Function.update p i t) q = Real.sqrt ((t - q i) ^ 2 + rest p q i) := by
  rw [dist, sqd_update]

theorem dist_eq (p q : V) (i : Fin 3) : dist p q = Real.sqrt ((p i - q i) ^ 2 + rest p q i) := by
  rw [← dist_update, Function.update_eq_self]

theorem swap_fst (p q : V) (i : Fin 3) :
    ∃ y z, swap (p 0 - q 0) (p 1 - q 1) (p 2 - q 2) i.1 = some (p i - q i, y, z) := by
  fin_cases i <;> exact ⟨_, _, rfl⟩

/-- What the first derivatives of a kernel should be: `c` is 1 or -1. -/
def isWilliams (K : Kernel) (c : ℝ) : Prop :=
  (∀ p q R, K.k p q R = 2 * dist p q ^ 3 + c * (3 * R * dist p q ^ 2) + R ^ 3) ∧
    ∀ x y z r R, K.dx x y z r R = some (6 * x * (r + c * R))

theorem isWilliams_plus : isWilliams williamsPlus 1 :=
  ⟨fun p q R => by simp only [williamsPlus]; ring, fun x y z r R => by simp [williamsPlus]⟩

theorem isWilliams_minus : isWilliams williamsMinus (-1) :=
  ⟨fun p q R => by simp only [williamsMinus]; ring, fun x y z r R => by simp only [williamsMinus]; congr 1; ring⟩

theorem di_eq {K : Kernel} {c : ℝ} (hK : isWilliams K c) (p q : V) (R : ℝ) (i : Fin 3) :
    K.di p q R i.1 = some (6 * (p i - q i) * (dist p q + c * R)) := by
  obtain ⟨y, z, h⟩ := swap_fst p q i
  simp [Kernel.di, h, hK.2]

theorem dj_eq {K : Kernel} {c : ℝ} (hK : isWilliams K c) (p q : V) (R : ℝ) (i : Fin 3) :
    K.dj p q R i.1 = some (-(6 * (p i - q i) * (dist p q + c * R))) := by
  obtain ⟨y, z, h⟩ := swap_fst p q i
  simp [Kernel.dj, h, hK.2]

theorem k_deriv {K : Kernel} {c : ℝ} (hK : isWilliams K c) (p q : V) (R : ℝ) (i : Fin 3) :
    HasDerivAt (fun t => K.k (Function.update p i t) q R) (6 * (p i - q i) * (dist p q + c * R)) (p i) := by
  have e : (fun t => K.k (Function.update p i t) q R) = fun t => (fun x => 2 * Real.sqrt (x ^ 2 + rest p q i) ^ 3 +
      c * (3 * R * (x ^ 2 + rest p q i)) + R ^ 3) (t - q i) := by
    funext t
    rw [hK.1, dist_update]
    simp only
    rw [Real.sq_sqrt (by have := rest_nonneg p q i; positivity)]
  rw [e]
  refine shift (f := fun x => 2 * Real.sqrt (x ^ 2 + rest p q i) ^ 3 + c * (3 * R * (x ^ 2 + rest p q i)) + R ^ 3) ?_
  have h1 := (cube_deriv (rest_nonneg p q i) (p i - q i)).const_mul 2
  have h2 : HasDerivAt (fun x : ℝ => c * (3 * R * (x ^ 2 + rest p q i))) (c * (3 * R * (2 * (p i - q i)))) (p i - q i) := by
    simpa using (((hasDerivAt_pow 2 (p i - q i)).add_const (rest p q i)).const_mul (3 * R)).const_mul c
  refine ((h1.add h2).add_const (R ^ 3)).congr_deriv ?_
  rw [dist_eq p q i]
  ring

theorem k_comm {K : Kernel} {c : ℝ} (hK : isWilliams K c) (p q : V) (R : ℝ) : K.k p q R = K.k q p R := by
  rw [hK.1, hK.1, dist_comm]

theorem rest_comm (p q : V) (i : Fin 3) : rest p q i = rest q p i := by
  unfold rest; rw [sqd_comm]; ring

/-- The derivative of the first derivative. -/
theorem dx_deriv (p q : V) (d R : ℝ) (i k : Fin 3) :
    HasDerivAt (fun t => 6 * (Function.update p k t i - q i) * (dist (Function.update p k t) q + d * R))
      (if k = i then 6 * (d * R + dist p q) + 6 * (p i - q i) * (p i - q i) / dist p q
        else 6 * (p k - q k) * (p i - q i) / dist p q) (p k) := by
  by_cases h : k = i
  · subst h
    rw [if_pos rfl]
    have e : (fun t => 6 * (Function.update p k t k - q k) * (dist (Function.update p k t) q + d * R)) = fun t =>
        (fun x => 6 * (x * Real.sqrt (x ^ 2 + rest p q k)) + 6 * d * R * x) (t - q k) := by
      funext t
      rw [dist_update, Function.update_self]
      ring
    rw [e]
    refine shift (f := fun x => 6 * (x * Real.sqrt (x ^ 2 + rest p q k)) + 6 * d * R * x) ?_
    refine (((mul_sqrt_deriv (rest_nonneg p q k) (p k - q k)).const_mul 6).add ((hasDerivAt_id' (p k - q k)).const_mul (6 * d * R))).congr_deriv ?_
    rw [← dist_eq p q k]
    ring
  · rw [if_neg h]
    have e : (fun t => 6 * (Function.update p k t i - q i) * (dist (Function.update p k t) q + d * R)) = fun t =>
        (fun x => 6 * ((p i - q i) * Real.sqrt (x ^ 2 + rest p q k)) + 6 * (p i - q i) * (d * R)) (t - q k) := by
      funext t
      rw [dist_update, Function.update_of_ne (Ne.symm h)]
      ring
    rw [e]
    refine shift (f := fun x => 6 * ((p i - q i) * Real.sqrt (x ^ 2 + rest p q k)) + 6 * (p i - q i) * (d * R)) ?_
    refine (((const_mul_sqrt_deriv (rest_ge p q h) (p k - q k)).const_mul 6).add_const _).congr_deriv ?_
    rw [← dist_eq p q k]
    ring

theorem didj_plus (p q : V) (R : ℝ) (i j : Fin 3) : williamsPlus.didj p q R i.1 j.1 =
    some (-(if i = j then 6 * (R + dist p q) + 6 * (p j - q j) * (p j - q j) / dist p q
        else 6 * (p i - q i) * (p j - q j) / dist p q)) := by
  by_cases h : i = j
  · subst h
    obtain ⟨y, z, hs⟩ := swap_fst p q i
    by_cases h0 : dist p q = 0
    · simp [Kernel.didj, hs, williamsPlus, h0]
    · simp [Kernel.didj, hs, williamsPlus, h0]
  · have h' : i.1 ≠ j.1 := fun e => h (Fin.ext e)
    rw [if_neg h, Kernel.didj, if_neg h']
    by_cases h0 : dist p q = 0
    · fin_cases i <;> fin_cases j <;> simp [williamsPlus, h0] at h ⊢
    · fin_cases i <;> fin_cases j <;> simp [williamsPlus, h0] at h ⊢

/-! ## The property -/

/-- **The first derivatives are right**: for both Williams kernels, all points, also equal ones, all `R` and the indices 0 to 2, `Kernel_di` is
the derivative of the kernel in the direction of an axis for the first point, and `Kernel_dj` that for the second. -/
theorem C99_first {K : Kernel} (hK : K = williamsPlus ∨ K = williamsMinus) (p1 p2 : V) (R : ℝ) {i : Nat} (hi : i < 3) :
    (∃ v, K.di p1 p2 R i = some v ∧ HasDerivAt (fun t => K.k (Function.update p1 ⟨i, hi⟩ t) p2 R) v (p1 ⟨i, hi⟩)) ∧
    ∃ v, K.dj p1 p2 R i = some v ∧ HasDerivAt (fun t => K.k p1 (Function.update p2 ⟨i, hi⟩ t) R) v (p2 ⟨i, hi⟩) := by
  obtain ⟨c, hc⟩ : ∃ c, isWilliams K c := by
    rcases hK with rfl | rfl
    · exact ⟨1, isWilliams_plus⟩
    · exact ⟨-1, isWilliams_minus⟩
  refine ⟨⟨_, di_eq hc p1 p2 R ⟨i, hi⟩, k_deriv hc p1 p2 R ⟨i, hi⟩⟩, _, dj_eq hc p1 p2 R ⟨i, hi⟩, ?_⟩
  have e : (fun t => K.k p1 (Function.update p2 ⟨i, hi⟩ t) R) = fun t => K.k (Function.update p2 ⟨i, hi⟩ t) p1 R := by
    funext t; exact k_comm hc _ _ _
  rw [e]
  refine (k_deriv hc p2 p1 R ⟨i, hi⟩).congr_deriv ?_
  rw [dist_comm p2 p1]
  ring

/-- **The second derivatives of WilliamsPlusKernel are right**, for all points, also equal ones: `Kernel_didj` is the derivative of
`Kernel_dj` for the first point and of `Kernel_di` for the second. -/
theorem C99_second_plus (p1 p2 : V) (R : ℝ) {i j : Nat} (hi : i < 3) (hj : j < 3) :
    ∃ v, williamsPlus.didj p1 p2 R i j = some v ∧
      HasDerivAt (fun t => (williamsPlus.dj (Function.update p1 ⟨i, hi⟩ t) p2 R j).getD 0) v (p1 ⟨i, hi⟩) ∧
      HasDerivAt (fun t => (williamsPlus.di p1 (Function.update p2 ⟨j, hj⟩ t) R i).getD 0) v (p2 ⟨j, hj⟩) := by
  refine ⟨_, didj_plus p1 p2 R ⟨i, hi⟩ ⟨j, hj⟩, ?_, ?_⟩
  · have e : (fun t => (williamsPlus.dj (Function.update p1 ⟨i, hi⟩ t) p2 R j).getD 0) = fun t =>
        -(6 * (Function.update p1 ⟨i, hi⟩ t ⟨j, hj⟩ - p2 ⟨j, hj⟩) * (dist (Function.update p1 ⟨i, hi⟩ t) p2 + 1 * R)) := by
      funext t
      rw [dj_eq isWilliams_plus _ _ _ ⟨j, hj⟩, Option.getD_some]
    rw [e]
    refine (dx_deriv p1 p2 1 R ⟨j, hj⟩ ⟨i, hi⟩).neg.congr_deriv ?_
    rw [one_mul]
  · have e : (fun t => (williamsPlus.di p1 (Function.update p2 ⟨j, hj⟩ t) R i).getD 0) = fun t =>
        -(6 * (Function.update p2 ⟨j, hj⟩ t ⟨i, hi⟩ - p1 ⟨i, hi⟩) * (dist (Function.update p2 ⟨j, hj⟩ t) p1 + 1 * R)) := by
      funext t
      rw [di_eq isWilliams_plus _ _ _ ⟨i, hi⟩, Option.getD_some, dist_comm]
      ring
    rw [e]
    refine (dx_deriv p2 p1 1 R ⟨i, hi⟩ ⟨j, hj⟩).neg.congr_deriv ?_
    rw [dist_comm p2 p1, one_mul]
    by_cases h : i = j
    · subst h; rw [if_pos rfl, if_pos rfl]; ring
    · rw [if_neg (fun e => h (congrArg Fin.val e).symm), if_neg (fun e => h (congrArg Fin.val e))]; ring

example : ∃ v, williamsPlus.didj ![1, 2, 3] ![1, 2, 3] 2 0 0 = some v ∧ v = -12 := by
  refine ⟨_, didj_plus _ _ _ 0 0, ?_⟩
  norm_num [dist, sqd]

/-- **Those of WilliamsMinusKernel are not**: for equal points and every `R` other than 0 `Kernel_didj` has the wrong sign. -/
theorem C99_second_minus_false (p : V) {R : ℝ} (hR : R ≠ 0) {i : Nat} (hi : i < 3) :
    ∃ v, williamsMinus.didj p p R i i = some v ∧ v ≠ 0 ∧
      HasDerivAt (fun t => (williamsMinus.dj (Function.update p ⟨i, hi⟩ t) p R i).getD 0) (-v) (p ⟨i, hi⟩) := by
  have h0 : dist p p = 0 := by simp [dist, sqd]
  obtain ⟨y, z, hs⟩ := swap_fst p p ⟨i, hi⟩
  simp only at hs
  refine ⟨-(6 * R), by rw [Kernel.didj, if_pos rfl, hs]; simp [williamsMinus, h0], by simpa using hR, ?_⟩
  have e : (fun t => (williamsMinus.dj (Function.update p ⟨i, hi⟩ t) p R i).getD 0) = fun t =>
      -(6 * (Function.update p ⟨i, hi⟩ t ⟨i, hi⟩ - p ⟨i, hi⟩) * (dist (Function.update p ⟨i, hi⟩ t) p + -1 * R)) := by
    funext t
    rw [dj_eq isWilliams_minus _ _ _ ⟨i, hi⟩, Option.getD_some]
  rw [e]
  refine (dx_deriv p p (-1) R ⟨i, hi⟩ ⟨i, hi⟩).neg.congr_deriv ?_
  rw [if_pos rfl, h0]
  ring

/-- For different points and different axes it has the wrong sign too. -/
theorem C99_mixed_minus_false (p1 p2 : V) (R : ℝ) {i j : Nat} (hi : i < 3) (hj : j < 3) (hij : i ≠ j) :
    ∃ v, williamsMinus.didj p1 p2 R i j = some v ∧
      HasDerivAt (fun t => (williamsMinus.dj (Function.update p1 ⟨i, hi⟩ t) p2 R j).getD 0) (-v) (p1 ⟨i, hi⟩) := by
  have hv : williamsMinus.didj p1 p2 R i j = some (6 * (p1 ⟨i, hi⟩ - p2 ⟨i, hi⟩) * (p1 ⟨j, hj⟩ - p2 ⟨j, hj⟩) / dist p1 p2) := by
    rw [Kernel.didj, if_neg hij]
    by_cases h0 : dist p1 p2 = 0
    · rcases i with _ | _ | _ | i <;> rcases j with _ | _ | _ | j <;> simp [williamsMinus, h0] at hi hj hij ⊢ <;> omega
    · rcases i with _ | _ | _ | i <;> rcases j with _ | _ | _ | j <;> first | (exfalso; omega) | (simp [williamsMinus, h0]; ring)
  refine ⟨_, hv, ?_⟩
  have e : (fun t => (williamsMinus.dj (Function.update p1 ⟨i, hi⟩ t) p2 R j).getD 0) = fun t =>
      -(6 * (Function.update p1 ⟨i, hi⟩ t ⟨j, hj⟩ - p2 ⟨j, hj⟩) * (dist (Function.update p1 ⟨i, hi⟩ t) p2 + -1 * R)) := by
    funext t
    rw [dj_eq isWilliams_minus _ _ _ ⟨j, hj⟩, Option.getD_some]
  rw [e]
  refine (dx_deriv p1 p2 (-1) R ⟨j, hj⟩ ⟨i, hi⟩).neg.congr_deriv ?_
  rw [if_neg (fun e => hij (congrArg Fin.val e))]

/-- **Indices**: with two indices from 0 to 3 the Williams kernels give a number; with a greater one they throw. Exchanging
the points together with the indices gives the same. GaussianKernel throws for all but 0 and 0. -/
theorem C99_indices {K : Kernel} (hK : K = williamsPlus ∨ K = williamsMinus) (p1 p2 : V) (R : ℝ) (i j : Nat) :
    ((K.ij p1 p2 R i j).isSome ↔ i ≤ 3 ∧ j ≤ 3) ∧ K.ij p1 p2 R i j = K.ij p2 p1 R j i ∧
      ∀ l, (((gaussian l).ij p1 p2 R i j).isSome ↔ i = 0 ∧ j = 0) := by
  have hd := dist_comm p1 p2
  refine ⟨?_, ?_, fun l => ?_⟩
  · rcases i with _ | _ | _ | _ | i <;> rcases j with _ | _ | _ | _ | j <;> rcases hK with rfl | rfl <;>
      simp [Kernel.ij, Kernel.di, Kernel.dj, Kernel.didj, swap, williamsPlus, williamsMinus]
  · rcases i with _ | _ | _ | _ | i <;> rcases j with _ | _ | _ | _ | j <;> rcases hK with rfl | rfl <;>
      simp [Kernel.ij, Kernel.di, Kernel.dj, Kernel.didj, swap, williamsPlus, williamsMinus, hd] <;>
      first | ring1 | (split_ifs <;> first | rfl | ring1)
  · rcases i with _ | _ | _ | _ | i <;> rcases j with _ | _ | _ | _ | j <;>
      simp [Kernel.ij, Kernel.di, Kernel.dj, Kernel.didj, swap, gaussian]

end Simox.Krn
