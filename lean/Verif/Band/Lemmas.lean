import Verif.Band.Model
import Verif.Band.Spec
import Mathlib.Analysis.Convex.Basic
import Mathlib.Analysis.Convex.Segment
import Mathlib.Tactic.Linarith
import Mathlib.Tactic.Module
import Mathlib.Tactic.NormNum

set_option linter.unusedSectionVars false

namespace Simox.Band

open Spec

variable {E : Type*} [NormedAddCommGroup E] [NormedSpace ℝ E]
  {S : Sense E} {w : E → E} {d2 : E → E → ℝ} {sampling : ℝ}

theorem clamp_norm {m : ℝ} (hm : 0 ≤ m) (f : E) : ‖clamp m f‖ ≤ m := by
  unfold clamp
  split
  · rename_i h
    have hf : ‖f‖ ≠ 0 := by intro e; rw [e] at h; linarith
    rw [norm_smul, norm_smul, norm_inv, norm_norm, inv_mul_cancel₀ hf, mul_one, Real.norm_eq_abs,
      abs_of_nonneg hm]
  · linarith

/-- Clamping scales by a number in [0, 1]. -/
theorem clamp_scale {m : ℝ} (hm : 0 ≤ m) (f : E) : ∃ t : ℝ, 0 ≤ t ∧ t ≤ 1 ∧ clamp m f = t • f := by
  unfold clamp
  split
  · rename_i h
    have hf : 0 < ‖f‖ := lt_of_le_of_lt hm h
    refine ⟨m * ‖f‖⁻¹, mul_nonneg hm (inv_nonneg.mpr hf.le), ?_, by rw [mul_smul]⟩
    rw [← div_eq_mul_inv, div_le_one hf]; exact h.le
  · exact ⟨1, zero_le_one, le_refl 1, (one_smul ℝ f).symm⟩

theorem clamp_zero {m : ℝ} (hm : 0 ≤ m) : clamp m (0 : E) = 0 := by
  unfold clamp
  rw [norm_zero, if_neg (not_lt.mpr hm)]

theorem obstacle_norm {a f : E} (h : obstacleForce S a = some f) : ‖f‖ ≤ 50 := by
  unfold obstacleForce at h
  split at h
  · rw [← Option.some.inj h]; exact clamp_norm (by norm_num) _
  · split at h
    · simp at h
    · rw [← Option.some.inj h]; exact clamp_norm (by norm_num) _

theorem obstacle_far {a : E} (h : 300 < S.dist a) : obstacleForce S a = some 0 := by
  unfold obstacleForce
  rw [if_pos h, smul_zero, clamp_zero (by norm_num)]

theorem movePoint_dist {b a n : E} (hw : ∀ f, ‖w f‖ ≤ ‖f‖) : ‖movePoint S w b a n - a‖ ≤ 70 := by
  unfold movePoint
  cases h : obstacleForce S a with
  | none => simp
  | some f =>
    have h1 := obstacle_norm h
    have h2 : ‖neighborForce b a n‖ ≤ 20 := clamp_norm (by norm_num) _
    have h3 := hw (f + neighborForce b a n)
    have h4 := norm_add_le f (neighborForce b a n)
    rw [add_sub_cancel_left]
    linarith

/-- Without obstacles nearby a point moves towards the middle between its neighbours. -/
theorem movePoint_free {b a n : E} (ha : 300 < S.dist a) : ∃ t : ℝ, 0 ≤ t ∧ t ≤ 1 ∧
    movePoint S id b a n = (1 - t) • a + t • ((0.5 : ℝ) • b + (0.5 : ℝ) • n) := by
  obtain ⟨t, h0, h1, e⟩ := clamp_scale (show (0 : ℝ) ≤ 20 by norm_num)
    ((0.5 : ℝ) • ((0.5 : ℝ) • ((b - a) + (n - a))))
  refine ⟨0.5 * t, by linarith, by linarith, ?_⟩
  unfold movePoint
  rw [obstacle_far ha]
  simp only [neighborForce, e, id, zero_add]
  module

theorem movePoint_shorter {b a n : E} (ha : 300 < S.dist a) :
    ‖movePoint S id b a n - b‖ + ‖n - movePoint S id b a n‖ ≤ ‖a - b‖ + ‖n - a‖ := by
  obtain ⟨t, h0, h1, e⟩ := movePoint_free (b := b) (n := n) ha
  rw [e]
  have e1 : (1 - t) • a + t • ((0.5 : ℝ) • b + (0.5 : ℝ) • n) - b =
      (1 - t) • (a - b) + (t * 0.5) • (n - b) := by module
  have e2 : n - ((1 - t) • a + t • ((0.5 : ℝ) • b + (0.5 : ℝ) • n)) =
      (1 - t) • (n - a) + (t * 0.5) • (n - b) := by module
  have n1 : ‖(1 - t) • (a - b) + (t * 0.5) • (n - b)‖ ≤ (1 - t) * ‖a - b‖ + t * 0.5 * ‖n - b‖ := by
    refine (norm_add_le _ _).trans ?_
    rw [norm_smul, norm_smul, Real.norm_eq_abs, Real.norm_eq_abs, abs_of_nonneg (by linarith),
      abs_of_nonneg (by linarith)]
  have n2 : ‖(1 - t) • (n - a) + (t * 0.5) • (n - b)‖ ≤ (1 - t) * ‖n - a‖ + t * 0.5 * ‖n - b‖ := by
    refine (norm_add_le _ _).trans ?_
    rw [norm_smul, norm_smul, Real.norm_eq_abs, Real.norm_eq_abs, abs_of_nonneg (by linarith),
      abs_of_nonneg (by linarith)]
  have n3 : ‖n - b‖ ≤ ‖a - b‖ + ‖n - a‖ := by
    have : n - b = (a - b) + (n - a) := by abel
    rw [this]; exact norm_add_le _ _
  rw [e1, e2]
  have := mul_le_mul_of_nonneg_left n3 h0
  linarith

/-! ## The two loops -/

theorem moveFrom_length : ∀ (l : List E) (b : E), (moveFrom S w b l).length = l.length := by
  intro l
  induction l with
  | nil => intro b; rfl
  | cons a l ih =>
    intro b
    cases l with
    | nil => rfl
    | cons n r =>
      simp only [moveFrom, List.length_cons] at ih ⊢
      rw [ih]

theorem moveFrom_last : ∀ (l : List E) (b : E), (moveFrom S w b l).getLast? = l.getLast? := by
  intro l
  induction l with
  | nil => intro b; rfl
  | cons a l ih =>
    intro b
    cases l with
    | nil => rfl
    | cons n r =>
      have h := ih (movePoint S w b a n)
      have hl := moveFrom_length (S := S) (w := w) (n :: r) (movePoint S w b a n)
      simp only [moveFrom]
      cases hm : moveFrom S w (movePoint S w b a n) (n :: r) with
      | nil => rw [hm] at hl; simp at hl
      | cons x xs => rw [List.getLast?_cons_cons, ← hm, h, List.getLast?_cons_cons]

theorem moveFrom_near (hw : ∀ f, ‖w f‖ ≤ ‖f‖) : ∀ (l : List E) (b : E),
    List.Forall₂ (fun x y => ‖y - x‖ ≤ 70) l (moveFrom S w b l) := by
  intro l
  induction l with
  | nil => intro b; exact List.Forall₂.nil
  | cons a l ih =>
    intro b
    cases l with
    | nil => exact List.Forall₂.cons (by simp) List.Forall₂.nil
    | cons n r => exact List.Forall₂.cons (movePoint_dist hw) (ih _)

theorem moveFrom_convex (hS : ∀ a, 300 < S.dist a) {C : Set E} (hC : Convex ℝ C) :
    ∀ (l : List E) (b : E), b ∈ C → (∀ x ∈ l, x ∈ C) → ∀ x ∈ moveFrom S id b l, x ∈ C := by
  intro l
  induction l with
  | nil => intro b _ h; exact h
  | cons a l ih =>
    intro b hb h
    cases l with
    | nil => exact h
    | cons n r =>
      have ha := h a (by simp)
      have hn := h n (by simp)
      have hm : movePoint S id b a n ∈ C := by
        obtain ⟨t, h0, h1, e⟩ := movePoint_free (b := b) (n := n) (hS a)
        rw [e]
        exact hC ha (hC hb hn (by norm_num) (by norm_num) (by norm_num)) (by linarith) h0 (by ring)
      intro x hx
      rcases List.mem_cons.mp hx with rfl | hx
      · exact hm
      · exact ih _ hm (fun y hy => h y (List.mem_cons_of_mem _ hy)) x hx

theorem moveFrom_shorter (hS : ∀ a, 300 < S.dist a) : ∀ (l : List E) (b : E),
    pathLength (b :: moveFrom S id b l) ≤ pathLength (b :: l) := by
  intro l
  induction l with
  | nil => intro b; exact le_refl _
  | cons a l ih =>
    intro b
    cases l with
    | nil => exact le_refl _
    | cons n r =>
      have h1 := ih (movePoint S id b a n)
      have h2 := movePoint_shorter (b := b) (n := n) (hS a)
      simp only [moveFrom, pathLength] at h1 ⊢
      linarith

theorem moveFrom_even (hS : ∀ a, 300 < S.dist a) (hw : w 0 = 0) : ∀ (l : List E) (b : E),
    Even (b :: l) → moveFrom S w b l = l := by
  intro l
  induction l with
  | nil => intro b _; rfl
  | cons a l ih =>
    intro b h
    cases l with
    | nil => rfl
    | cons n r =>
      obtain ⟨h1, h2⟩ := h
      have hm : movePoint S w b a n = a := by
        unfold movePoint
        rw [obstacle_far (hS a)]
        have e : (b - a) + (n - a) = 0 := by rw [← h1]; abel
        simp only [neighborForce, e, smul_zero, clamp_zero (show (0 : ℝ) ≤ 20 by norm_num), add_zero,
          hw]
      simp only [moveFrom, hm]
      rw [ih a h2]

theorem removeFrom_sublist {ssd : ℝ} : ∀ (n : Nat) (l : List E) (b : E), l.length ≤ n →
    (removeFrom d2 ssd b l).Sublist l := by
  intro n
  induction n with
  | zero => intro l b h; rw [List.length_eq_zero_iff.mp (Nat.le_zero.mp h)]; exact List.Sublist.refl _
  | succ n ih =>
    intro l b h
    match l, h with
    | [], _ => exact List.Sublist.refl _
    | [_], _ => exact List.Sublist.refl _
    | [_, _], _ => exact List.Sublist.refl _
    | a :: x :: y :: r, h =>
      simp only [List.length_cons] at h
      unfold removeFrom
      split
      · exact (List.Sublist.cons_cons x (ih (y :: r) x (by simp only [List.length_cons]; omega))).cons a
      · exact List.Sublist.cons_cons a (ih (x :: y :: r) a (by simp only [List.length_cons]; omega))

theorem removeFrom_last {ssd : ℝ} : ∀ (n : Nat) (l : List E) (b : E), l.length ≤ n →
    (removeFrom d2 ssd b l).getLast? = l.getLast? ∧
      (2 ≤ l.length → 2 ≤ (removeFrom d2 ssd b l).length) ∧
      (l ≠ [] → removeFrom d2 ssd b l ≠ []) := by
  intro n
  induction n with
  | zero =>
    intro l b h
    rw [List.length_eq_zero_iff.mp (Nat.le_zero.mp h)]
    exact ⟨rfl, fun h => h, fun h => h⟩
  | succ n ih =>
    intro l b h
    match l, h with
    | [], _ => exact ⟨rfl, fun h => h, fun h => h⟩
    | [_], _ => exact ⟨rfl, fun h => h, fun h => h⟩
    | [_, _], _ => exact ⟨rfl, fun h => h, fun h => h⟩
    | a :: x :: y :: r, h =>
      simp only [List.length_cons] at h
      have key : ∀ (z : E) (l' : List E), l' ≠ [] → l'.length ≤ n →
          (z :: removeFrom d2 ssd z l').getLast? = l'.getLast? ∧
          2 ≤ (z :: removeFrom d2 ssd z l').length := by
        intro z l' hne hl
        obtain ⟨h1, _, h3⟩ := ih l' z hl
        have h3 := h3 hne
        cases hm : removeFrom d2 ssd z l' with
        | nil => exact absurd hm h3
        | cons u us => rw [List.getLast?_cons_cons, ← hm, h1]; rw [hm]; exact ⟨rfl, by simp⟩
      unfold removeFrom
      split
      · obtain ⟨h1, h2⟩ := key x (y :: r) (by simp) (by simp only [List.length_cons]; omega)
        exact ⟨by rw [h1, List.getLast?_cons_cons, List.getLast?_cons_cons], fun _ => h2,
          fun _ => by simp⟩
      · obtain ⟨h1, h2⟩ := key a (x :: y :: r) (by simp) (by simp only [List.length_cons]; omega)
        exact ⟨by rw [h1]; exact (List.getLast?_cons_cons ..).symm, fun _ => h2, fun _ => by simp⟩

theorem removeFrom_shorter {ssd : ℝ} : ∀ (n : Nat) (l : List E) (b : E), l.length ≤ n →
    pathLength (b :: removeFrom d2 ssd b l) ≤ pathLength (b :: l) := by
  intro n
  induction n with
  | zero =>
    intro l b h
    rw [List.length_eq_zero_iff.mp (Nat.le_zero.mp h)]
    exact le_refl _
  | succ n ih =>
    intro l b h
    match l, h with
    | [], _ => exact le_refl _
    | [_], _ => exact le_refl _
    | [_, _], _ => exact le_refl _
    | a :: x :: y :: r, h =>
      simp only [List.length_cons] at h
      unfold removeFrom
      split
      · have h1 := ih (y :: r) x (by simp only [List.length_cons]; omega)
        have h2 : ‖x - b‖ ≤ ‖a - b‖ + ‖x - a‖ := by
          have : x - b = (a - b) + (x - a) := by abel
          rw [this]; exact norm_add_le _ _
        simp only [pathLength] at h1 ⊢
        linarith
      · have h1 := ih (x :: y :: r) a (by simp only [List.length_cons]; omega)
        simp only [pathLength] at h1 ⊢
        linarith

/-! ## Rounds -/

theorem round_eq (p q : E) (r : List E) : ∃ x y : E, ∃ r' : List E,
    moveFrom S w p (q :: r) = y :: r' ∧ x = p ∧
    round S w d2 sampling (p :: q :: r) =
      some (p :: removeFrom d2 (2 * sampling * sampling) p (moveFrom S w p (q :: r))) := by
  have hl := moveFrom_length (S := S) (w := w) (q :: r) p
  cases hm : moveFrom S w p (q :: r) with
  | nil => rw [hm] at hl; simp at hl
  | cons y r' =>
    refine ⟨p, y, r', rfl, rfl, ?_⟩
    simp only [round, elasticBandLoop, hm, checkRemoveNodes]

/-- Something that every round preserves is preserved by `optimize`. -/
theorem optimize_ind (P : List E → List E → Prop) (hrefl : ∀ l, P l l)
    (htrans : ∀ l l' l'', P l l' → P l' l'' → P l l'')
    (hround : ∀ l l', 2 ≤ l.length → round S w d2 sampling l = some l' → 2 ≤ l'.length ∧ P l l') :
    ∀ (k : Nat) (l : List E), 2 ≤ l.length →
      ∃ l', optimize S w d2 sampling k l = some l' ∧ P l l' := by
  intro k
  induction k with
  | zero => intro l _; exact ⟨l, rfl, hrefl l⟩
  | succ k ih =>
    intro l hl
    match l, hl with
    | p :: q :: r, hl =>
      obtain ⟨_, _, _, _, _, e⟩ := round_eq (S := S) (w := w) (d2 := d2) (sampling := sampling) p q r
      obtain ⟨h1, h2⟩ := hround _ _ hl e
      obtain ⟨l', e', h3⟩ := ih _ h1
      refine ⟨l', ?_, htrans _ _ _ h2 h3⟩
      unfold optimize
      rw [e]
      exact e'

end Simox.Band
