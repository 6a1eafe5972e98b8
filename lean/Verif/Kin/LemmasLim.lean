import Verif.Kin.Spec

/-!
# Lemmas about joint limits
-/

namespace Simox.Kin

open Spec

theorem SameAngle.refl' (a : ℝ) : SameAngle a a := ⟨0, by simp⟩

theorem SameAngle.trans' {a b c : ℝ} (h1 : SameAngle a b) (h2 : SameAngle b c) : SameAngle a c := by
  obtain ⟨k, rfl⟩ := h1
  obtain ⟨l, rfl⟩ := h2
  exact ⟨l + k, by push_cast; ring⟩

theorem wrapDown_le (hi q : ℝ) : wrapDown hi q ≤ hi := by
  induction q using wrapDown.induct hi with
  | case1 q h ih => rw [wrapDown.eq_def, dif_pos h]; exact ih
  | case2 q h => rw [wrapDown.eq_def, dif_neg h]; exact not_lt.1 h

theorem wrapDown_same (hi q : ℝ) : SameAngle (wrapDown hi q) q := by
  induction q using wrapDown.induct hi with
  | case1 q h ih =>
    rw [wrapDown.eq_def, dif_pos h]
    exact SameAngle.trans' ih ⟨-1, by unfold turn; push_cast; ring⟩
  | case2 q h => rw [wrapDown.eq_def, dif_neg h]; exact SameAngle.refl' q

theorem wrapDown_id {hi q : ℝ} (h : q ≤ hi) : wrapDown hi q = q := by
  rw [wrapDown.eq_def, dif_neg (not_lt.2 h)]

theorem wrapDown_gt {hi q : ℝ} (h : hi < q) : hi - turn < wrapDown hi q := by
  induction q using wrapDown.induct hi with
  | case1 q h ih =>
    rw [wrapDown.eq_def, dif_pos h]
    by_cases h2 : hi < q - turn
    · exact ih h2
    · rw [wrapDown_id (not_lt.1 h2)]; linarith
  | case2 q h' => exact absurd h h'

theorem wrapUp_ge (lo q : ℝ) : lo ≤ wrapUp lo q := by
  induction q using wrapUp.induct lo with
  | case1 q h ih => rw [wrapUp.eq_def, dif_pos h]; exact ih
  | case2 q h => rw [wrapUp.eq_def, dif_neg h]; exact not_lt.1 h

theorem wrapUp_same (lo q : ℝ) : SameAngle (wrapUp lo q) q := by
  induction q using wrapUp.induct lo with
  | case1 q h ih =>
    rw [wrapUp.eq_def, dif_pos h]
    exact SameAngle.trans' ih ⟨1, by unfold turn; push_cast; ring⟩
  | case2 q h => rw [wrapUp.eq_def, dif_neg h]; exact SameAngle.refl' q

theorem wrapUp_id {lo q : ℝ} (h : lo ≤ q) : wrapUp lo q = q := by
  rw [wrapUp.eq_def, dif_neg (not_lt.2 h)]

theorem wrapUp_lt {lo q : ℝ} (h : q < lo) : wrapUp lo q < lo + turn := by
  induction q using wrapUp.induct lo with
  | case1 q h ih =>
    rw [wrapUp.eq_def, dif_pos h]
    by_cases h2 : q + turn < lo
    · exact ih h2
    · rw [wrapUp_id (not_lt.1 h2)]; linarith
  | case2 q h' => exact absurd h h'

theorem fmod_same (q : ℝ) : SameAngle (fmod q turn) q := by
  unfold fmod
  split
  · exact ⟨-⌊q / turn⌋, by unfold turn; push_cast; ring⟩
  · exact ⟨-⌈q / turn⌉, by unfold turn; push_cast; ring⟩

theorem fmod_nonneg {q : ℝ} (h : 0 ≤ q) : 0 ≤ fmod q turn ∧ fmod q turn < turn ∧ fmod q turn ≤ q := by
  have ht := turn_pos
  have hq : 0 ≤ q / turn := div_nonneg h ht.le
  unfold fmod
  rw [if_pos hq]
  have h1 := Int.floor_le (q / turn)
  have h2 := Int.lt_floor_add_one (q / turn)
  have h0 : (0 : ℝ) ≤ (⌊q / turn⌋ : ℝ) := by exact_mod_cast Int.floor_nonneg.2 hq
  have e : q = turn * (q / turn) := by field_simp
  refine ⟨?_, ?_, ?_⟩
  · nlinarith
  · nlinarith
  · nlinarith

/-- A negative value is reduced by `-fmod |q|` without changing the angle. -/
theorem neg_fmod_abs_same {q : ℝ} (h : q ≤ 0) : SameAngle (-fmod |q| turn) q := by
  obtain ⟨k, hk⟩ := fmod_same |q|
  refine ⟨-k, ?_⟩
  rw [hk, abs_of_nonpos h]
  push_cast
  ring

theorem clamp_nearest {lo hi : ℝ} (h : lo ≤ hi) (q : ℝ) : Nearest lo hi q (clamp lo hi q) := by
  unfold clamp
  by_cases h1 : q < lo
  · simp only [h1, if_true, not_lt.2 h, if_false]
    refine ⟨le_refl _, h, fun y hy _ => ?_⟩
    rw [abs_of_nonneg (by linarith), abs_of_nonneg (by linarith)]
    linarith
  · simp only [h1, if_false]
    by_cases h2 : hi < q
    · simp only [h2, if_true]
      refine ⟨h, le_refl _, fun y _ hy => ?_⟩
      rw [abs_of_nonpos (by linarith), abs_of_nonpos (by linarith)]
      linarith
    · simp only [h2, if_false]
      refine ⟨not_lt.1 h1, not_lt.1 h2, fun y _ _ => ?_⟩
      rw [sub_self, abs_zero]
      exact abs_nonneg _

theorem clamp_id {lo hi q : ℝ} (h1 : lo ≤ q) (h2 : q ≤ hi) : clamp lo hi q = q := by
  unfold clamp
  simp only [not_lt.2 h1, if_false, not_lt.2 h2]

/-- On joints with limits nearest points are unique. -/
theorem nearest_unique {lo hi q x y : ℝ} (hx : Nearest lo hi q x) (hy : Nearest lo hi q y) : x = y := by
  obtain ⟨x1, x2, x3⟩ := hx
  obtain ⟨y1, y2, y3⟩ := hy
  have m1 := x3 ((x + y) / 2) (by linarith) (by linarith)
  have m2 := y3 ((x + y) / 2) (by linarith) (by linarith)
  have h1 := x3 y y1 y2
  have h2 := y3 x x1 x2
  rcases abs_cases (x - q) with ⟨a1, b1⟩ | ⟨a1, b1⟩ <;> rcases abs_cases (y - q) with ⟨a2, b2⟩ | ⟨a2, b2⟩ <;>
    rcases abs_cases ((x + y) / 2 - q) with ⟨a3, b3⟩ | ⟨a3, b3⟩ <;> linarith

/-- Values inside the limits are stored as they are. -/
theorem stored_id {l : Lim} {q : ℝ} (h1 : l.lo ≤ q) (h2 : q ≤ l.hi) : stored l q = q := by
  unfold stored
  by_cases hl : l.limitless
  · simp only [hl, if_true, not_lt.2 h2, if_false]
    rw [wrapDown_id h2, if_neg (not_lt.2 h1), wrapUp_id h1]
  · simp only [hl, Bool.false_eq_true, if_false]
    split
    · exact clamp_id h1 h2
    · rfl

theorem stored_same {l : Lim} (hl : l.limitless = true) (h0 : l.lo ≤ 0) (q : ℝ) :
    SameAngle (stored l q) q := by
  unfold stored
  simp only [hl, if_true]
  set q1 := if l.hi < q then fmod q turn else q with hq1
  have s1 : SameAngle q1 q := by
    rw [hq1]; split
    · exact fmod_same q
    · exact SameAngle.refl' q
  refine SameAngle.trans' (wrapUp_same _ _) ?_
  by_cases h : wrapDown l.hi q1 < l.lo
  · rw [if_pos h]
    exact SameAngle.trans' (neg_fmod_abs_same (by linarith)) (SameAngle.trans' (wrapDown_same _ _) s1)
  · rw [if_neg h]
    exact SameAngle.trans' (wrapDown_same _ _) s1

theorem stored_ge {l : Lim} (hl : l.limitless = true) (q : ℝ) : l.lo ≤ stored l q := by
  unfold stored
  simp only [hl, if_true]
  exact wrapUp_ge _ _

theorem stored_le {l : Lim} (hl : l.limitless = true) (hs : l.lo + turn ≤ l.hi) (h0 : 0 ≤ l.hi) (q : ℝ) :
    stored l q ≤ l.hi := by
  unfold stored
  simp only [hl, if_true]
  set q1 := if l.hi < q then fmod q turn else q with hq1
  by_cases h : wrapDown l.hi q1 < l.lo
  · rw [if_pos h]
    by_cases h2 : -fmod |wrapDown l.hi q1| turn < l.lo
    · exact le_of_lt (lt_of_lt_of_le (wrapUp_lt h2) hs)
    · rw [wrapUp_id (not_lt.1 h2)]
      have := (fmod_nonneg (abs_nonneg (wrapDown l.hi q1))).1
      linarith
  · rw [if_neg h, wrapUp_id (not_lt.1 h)]
    exact wrapDown_le _ _

end Simox.Kin
