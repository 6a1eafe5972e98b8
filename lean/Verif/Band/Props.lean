import Verif.Band.Lemmas
import Mathlib.Analysis.Normed.Group.Basic
import Mathlib.Analysis.Normed.Field.Basic
import Mathlib.Tactic.FieldSimp
import Mathlib.Tactic.Positivity

/-!
# C171, C172: the elastic band
-/

set_option linter.unusedSectionVars false

namespace Simox.Band

open Spec

variable {E : Type*} [NormedAddCommGroup E] [NormedSpace ℝ E]
  (S : Sense E) (w : E → E) (d2 : E → E → ℝ) (sampling : ℝ)

/-- **C171.** For all obstacles, weights, distances and numbers of rounds: the processed path of a path of at
least two points begins and ends where the path does; it has no more points, and still at least three if
the path has at least three. -/
theorem C171_ends (k : Nat) (l : List E) (hl : 2 ≤ l.length) :
    ∃ l', optimize S w d2 sampling k l = some l' ∧ l'.head? = l.head? ∧ l'.getLast? = l.getLast? ∧
      2 ≤ l'.length ∧ l'.length ≤ l.length ∧ (3 ≤ l.length → 3 ≤ l'.length) := by
  obtain ⟨l', e, h1, h2, h3, h4, h5⟩ := optimize_ind (S := S) (w := w) (d2 := d2) (sampling := sampling)
    (fun l l' => l'.head? = l.head? ∧ l'.getLast? = l.getLast? ∧ (2 ≤ l.length → 2 ≤ l'.length) ∧
      l'.length ≤ l.length ∧ (3 ≤ l.length → 3 ≤ l'.length))
    (fun l => ⟨rfl, rfl, id, le_refl _, id⟩)
    (fun l l' l'' h h' => ⟨h'.1.trans h.1, h'.2.1.trans h.2.1, fun x => h'.2.2.1 (h.2.2.1 x),
      h'.2.2.2.1.trans h.2.2.2.1, fun x => h'.2.2.2.2 (h.2.2.2.2 x)⟩)
    (by
      intro l l' hl e
      match l, hl with
      | p :: q :: r, hl =>
        obtain ⟨_, y, r', hm, _, e'⟩ := round_eq (S := S) (w := w) (d2 := d2) (sampling := sampling) p q r
        rw [e] at e'
        have e' := Option.some.inj e'
        subst e'
        have hlen := moveFrom_length (S := S) (w := w) (q :: r) p
        have hlast := moveFrom_last (S := S) (w := w) (q :: r) p
        have hsub := removeFrom_sublist (d2 := d2) (ssd := 2 * sampling * sampling) _
          (moveFrom S w p (q :: r)) p (le_refl _)
        obtain ⟨h1, h2, h3⟩ := removeFrom_last (d2 := d2) (ssd := 2 * sampling * sampling) _
          (moveFrom S w p (q :: r)) p (le_refl _)
        have hne : moveFrom S w p (q :: r) ≠ [] := by rw [hm]; simp
        have h3 := h3 hne
        have hle := hsub.length_le
        have hpos := List.length_pos_iff.mpr h3
        rw [hlen] at h2 hle
        simp only [List.length_cons] at h2 hle
        refine ⟨by simp only [List.length_cons]; omega, rfl, ?_, fun _ => by simp only [List.length_cons]; omega,
          by simp only [List.length_cons]; omega, fun h => ?_⟩
        · cases hr : removeFrom d2 (2 * sampling * sampling) p (moveFrom S w p (q :: r)) with
          | nil => exact absurd hr h3
          | cons u us => rw [List.getLast?_cons_cons, ← hr, h1, hlast, List.getLast?_cons_cons]
        · simp only [List.length_cons] at h ⊢
          have := h2 (by omega)
          omega)
    k l hl
  exact ⟨l', e, h1, h2, h3 hl, h4, h5⟩

/-- **C171**: in one pass of the loop every point moves by at most 70 (20 towards its neighbours, 50 away
from obstacles), for weights that do not enlarge vectors. -/
theorem C171_small_moves (hw : ∀ f, ‖w f‖ ≤ ‖f‖) (l l' : List E) (h : elasticBandLoop S w l = some l') :
    List.Forall₂ (fun x y => ‖y - x‖ ≤ 70) l l' := by
  cases l with
  | nil => simp [elasticBandLoop] at h
  | cons p r =>
    rw [← Option.some.inj h]
    exact List.Forall₂.cons (by simp) (moveFrom_near hw r p)

/-- **C171**: after `k` rounds every point is at most `70 k` away from a point of the path. -/
theorem C171_drift (hw : ∀ f, ‖w f‖ ≤ ‖f‖) (k : Nat) (l l' : List E) (hl : 2 ≤ l.length)
    (h : optimize S w d2 sampling k l = some l') : ∀ y ∈ l', ∃ x ∈ l, ‖y - x‖ ≤ 70 * k := by
  induction k generalizing l with
  | zero =>
    intro y hy
    rw [← Option.some.inj h] at hy
    exact ⟨y, hy, by simp⟩
  | succ k ih =>
    match l, hl with
    | p :: q :: r, hl =>
      obtain ⟨_, y0, r', hm, _, e⟩ := round_eq (S := S) (w := w) (d2 := d2) (sampling := sampling) p q r
      unfold optimize at h
      rw [e] at h
      dsimp only at h
      have hsub := removeFrom_sublist (d2 := d2) (ssd := 2 * sampling * sampling) _
        (moveFrom S w p (q :: r)) p (le_refl _)
      obtain ⟨_, _, h3⟩ := removeFrom_last (d2 := d2) (ssd := 2 * sampling * sampling) _
        (moveFrom S w p (q :: r)) p (le_refl _)
      have hpos := List.length_pos_iff.mpr (h3 (by rw [hm]; simp))
      intro y hy
      obtain ⟨x, hx, hd⟩ := ih _ (by simp only [List.length_cons]; omega) h y hy
      have hstep : ∃ z ∈ p :: q :: r, ‖x - z‖ ≤ 70 := by
        rcases List.mem_cons.mp hx with rfl | hx
        · exact ⟨x, by simp, by simp⟩
        · have hx := hsub.subset hx
          have key : ∀ (l m : List E), List.Forall₂ (fun x y => ‖y - x‖ ≤ 70) l m → ∀ x ∈ m,
              ∃ z ∈ l, ‖x - z‖ ≤ 70 := by
            intro l m hf
            induction hf with
            | nil => intro x hx; simp at hx
            | cons hd _ ih =>
              intro x hx
              rcases List.mem_cons.mp hx with rfl | hx
              · exact ⟨_, List.mem_cons_self .., hd⟩
              · obtain ⟨z, hz, hz'⟩ := ih x hx
                exact ⟨z, List.mem_cons_of_mem _ hz, hz'⟩
          obtain ⟨z, hz, hz'⟩ := key _ _ (moveFrom_near (S := S) hw (q :: r) p) x hx
          exact ⟨z, List.mem_cons_of_mem _ hz, hz'⟩
      obtain ⟨z, hz, hz'⟩ := hstep
      refine ⟨z, hz, ?_⟩
      have : y - z = (y - x) + (x - z) := by abel
      rw [this]
      refine (norm_add_le _ _).trans ?_
      push_cast
      linarith

/-- **C171**: as long as no obstacle is within 300 and the weights are 1, the path does not get longer, and
it stays in every convex set that contains its points (in particular within the joint limits). -/
theorem C171_shorter (hS : ∀ a, 300 < S.dist a) (C : Set E) (hC : Convex ℝ C) (k : Nat) (l : List E)
    (hl : 2 ≤ l.length) (hlC : ∀ x ∈ l, x ∈ C) :
    ∃ l', optimize S id d2 sampling k l = some l' ∧ pathLength l' ≤ pathLength l ∧ ∀ x ∈ l', x ∈ C := by
  obtain ⟨l', e, h1, h2⟩ := optimize_ind (S := S) (w := id) (d2 := d2) (sampling := sampling)
    (fun l l' => pathLength l' ≤ pathLength l ∧ ((∀ x ∈ l, x ∈ C) → ∀ x ∈ l', x ∈ C))
    (fun l => ⟨le_refl _, id⟩) (fun l l' l'' h h' => ⟨h'.1.trans h.1, fun x => h'.2 (h.2 x)⟩)
    (by
      intro l l' hl e
      match l, hl with
      | p :: q :: r, hl =>
        obtain ⟨_, y, r', hm, _, e'⟩ := round_eq (S := S) (w := id) (d2 := d2) (sampling := sampling) p q r
        rw [e] at e'
        have e' := Option.some.inj e'
        subst e'
        obtain ⟨_, _, h3⟩ := removeFrom_last (d2 := d2) (ssd := 2 * sampling * sampling) _
          (moveFrom S id p (q :: r)) p (le_refl _)
        have hpos := List.length_pos_iff.mpr (h3 (by rw [hm]; simp))
        refine ⟨by simp only [List.length_cons]; omega,
          (removeFrom_shorter _ _ p (le_refl _)).trans (moveFrom_shorter hS (q :: r) p), ?_⟩
        intro hin x hx
        rcases List.mem_cons.mp hx with rfl | hx
        · exact hin x (by simp)
        · exact moveFrom_convex hS hC (q :: r) p (hin p (by simp))
            (fun z hz => hin z (List.mem_cons_of_mem _ hz)) x
            ((removeFrom_sublist (d2 := d2) _ _ p (le_refl _)).subset hx))
    k l hl
  exact ⟨l', e, h1, h2 hlC⟩

/-- **C171**: an evenly spaced straight path far from obstacles is at rest: the loop does not change it. -/
theorem C171_rest (hS : ∀ a, 300 < S.dist a) (hw : w 0 = 0) (l : List E) (hne : l ≠ []) (he : Even l) :
    elasticBandLoop S w l = some l := by
  cases l with
  | nil => exact absurd rfl hne
  | cons p r =>
    show some (p :: moveFrom S w p r) = _
    rw [moveFrom_even hS hw r p he]

/-- **C171**: the pull of the neighbours. Far from obstacles a point goes halfway to the middle between its
neighbours, if this is at most 20 away; otherwise it moves by 20 in that direction. -/
theorem C171_pull (hS : ∀ a, 300 < S.dist a) (b a n : E) (m : E) (hm : m = (1 / 2 : ℝ) • (b + n)) :
    (‖m - a‖ ≤ 40 → elasticBandLoop S id [b, a, n] = some [b, (1 / 2 : ℝ) • (a + m), n]) ∧
    (40 < ‖m - a‖ → elasticBandLoop S id [b, a, n] = some [b, a + (20 / ‖m - a‖) • (m - a), n]) := by
  have e : (0.5 : ℝ) • ((0.5 : ℝ) • ((b - a) + (n - a))) = (1 / 2 : ℝ) • (m - a) := by
    rw [hm, show (0.5 : ℝ) = 1 / 2 by norm_num]; module
  have hnorm : ‖(1 / 2 : ℝ) • (m - a)‖ = 1 / 2 * ‖m - a‖ := by
    rw [norm_smul, Real.norm_eq_abs, abs_of_nonneg (by norm_num)]
  constructor
  · intro h
    simp only [elasticBandLoop, moveFrom, movePoint, obstacle_far (hS a), neighborForce, e, clamp, hnorm]
    rw [if_neg (by linarith)]
    congr 4
    simp only [id, zero_add]; module
  · intro h
    simp only [elasticBandLoop, moveFrom, movePoint, obstacle_far (hS a), neighborForce, e, clamp, hnorm]
    rw [if_pos (by linarith)]
    have hne : ‖m - a‖ ≠ 0 := by intro e0; rw [e0] at h; linarith
    congr 4
    simp only [id, zero_add, smul_smul]
    congr 2
    field_simp

/-- **C171**: the push of obstacles. A point halfway between its neighbours with an obstacle at distance `d`
within 300 moves in the direction away from it, by 10000 / d times the length of this direction, and by at
most 50. -/
theorem C171_push (b a n : E) (he : a - b = n - a) (hd : 0 < S.dist a) (hd' : S.dist a ≤ 300)
    (hu : S.away a ≠ 0) : ∃ t : ℝ, 0 < t ∧ elasticBandLoop S id [b, a, n] = some [b, a + t • S.away a, n] ∧
      t * ‖S.away a‖ = min 50 (10000 / S.dist a * ‖S.away a‖) := by
  have hun : 0 < ‖S.away a‖ := norm_pos_iff.mpr hu
  have e0 : (b - a) + (n - a) = 0 := by rw [← he]; abel
  have e1 : (10000 : ℝ) • ((1 / S.dist a) • S.away a) = (10000 / S.dist a) • S.away a := by
    rw [smul_smul]; congr 1; ring
  have hp : 0 < 10000 / S.dist a := by positivity
  have e2 : ‖(10000 / S.dist a) • S.away a‖ = 10000 / S.dist a * ‖S.away a‖ := by
    rw [norm_smul, Real.norm_eq_abs, abs_of_pos hp]
  have hloop : ∀ f : E, clamp 50 ((10000 / S.dist a) • S.away a) = f →
      elasticBandLoop S id [b, a, n] = some [b, a + f, n] := by
    intro f hf
    simp only [elasticBandLoop, moveFrom, movePoint, obstacleForce]
    rw [if_neg (not_lt.mpr hd'), if_neg hd.ne']
    simp only [neighborForce, e0, smul_zero, clamp_zero (show (0 : ℝ) ≤ 20 by norm_num), e1, hf, id,
      add_zero]
  by_cases h : 50 < 10000 / S.dist a * ‖S.away a‖
  · refine ⟨50 / ‖S.away a‖, by positivity, ?_, ?_⟩
    · apply hloop
      unfold clamp
      rw [e2, if_pos h, smul_smul, smul_smul]
      congr 1
      field_simp
    · rw [min_eq_left h.le, div_mul_cancel₀ _ hun.ne']
  · refine ⟨10000 / S.dist a, hp, ?_, ?_⟩
    · apply hloop
      unfold clamp
      rw [e2, if_neg h]
    · rw [min_eq_right (not_lt.mp h)]

/-! ## C172 -/

/-- **C172**: a path in collision is not repaired: a point in collision is not moved, in any number of
rounds, if it is the only one between the ends. -/
theorem C172_stuck (a b c : E) (h : S.dist b = 0) (k : Nat) :
    optimize S w d2 sampling k [a, b, c] = some [a, b, c] := by
  have hm : movePoint S w a b c = b := by
    unfold movePoint obstacleForce
    rw [h, if_neg (by norm_num), if_pos rfl]
  induction k with
  | zero => rfl
  | succ k ih =>
    unfold optimize round
    simp only [elasticBandLoop, moveFrom, checkRemoveNodes, removeFrom, hm]
    exact ih

/-- **C172**: `optimize` throws exactly if the path has fewer than two points (and at least one round is
asked for). -/
theorem C172_throws (k : Nat) (l : List E) :
    optimize S w d2 sampling (k + 1) l = none ↔ l.length < 2 := by
  constructor
  · intro h
    by_contra hl
    obtain ⟨l', e, _⟩ := C171_ends S w d2 sampling (k + 1) l (by omega)
    rw [e] at h; simp at h
  · intro h
    match l, h with
    | [], _ => simp [optimize, round, elasticBandLoop]
    | [p], _ => simp [optimize, round, elasticBandLoop, checkRemoveNodes, moveFrom]

/-- A wall at 30 (1 unit is 1000 mm); a point at 30 is in collision. -/
noncomputable def wallSense : Sense ℝ where
  dist x := 1000 * |x - 30|
  away x := x - 30

/-- **C172** is violated: the processed path of a path without collisions may be in collision. The point at
40 is drawn by its neighbours, the wall at 30 being farther than 300 away, into the wall. -/
theorem C172_collision_false (d2 : ℝ → ℝ → ℝ) (sampling : ℝ) : (∀ x ∈ [20, (40 : ℝ), 20], wallSense.dist x ≠ 0) ∧
    optimize wallSense id d2 sampling 1 [20, 40, 20] = some [20, 30, 20] ∧ wallSense.dist 30 = 0 := by
  refine ⟨?_, ?_, by simp [wallSense]⟩
  · intro x hx
    simp only [List.mem_cons, List.not_mem_nil, or_false] at hx
    rcases hx with rfl | rfl | rfl <;> simp only [wallSense] <;> norm_num
  · have hd : (300 : ℝ) < wallSense.dist 40 := by
      simp only [wallSense]; rw [abs_of_nonneg (by norm_num)]; norm_num
    have hn : neighborForce (20 : ℝ) 40 20 = -10 := by
      unfold neighborForce clamp
      have e : (0.5 : ℝ) • ((0.5 : ℝ) • (((20 : ℝ) - 40) + (20 - 40))) = -10 := by
        simp only [smul_eq_mul]; norm_num
      rw [e, if_neg (by rw [Real.norm_eq_abs, abs_neg, abs_of_nonneg (by norm_num)]; norm_num)]
    have hm : movePoint wallSense id (20 : ℝ) 40 20 = 30 := by
      unfold movePoint
      rw [obstacle_far hd, hn]
      simp only [id]; norm_num
    simp only [optimize, round, elasticBandLoop, moveFrom, checkRemoveNodes, removeFrom, hm]

/-! ## The hypotheses are met -/

/-- `C171_shorter`: a path with a detour, in a convex set, far from obstacles. -/
example : (∀ a : ℝ, 300 < (Sense.mk (fun _ : ℝ => (301 : ℝ)) id).dist a) ∧ Convex ℝ (Set.univ : Set ℝ) ∧
    2 ≤ [0, (40 : ℝ), 0].length :=
  ⟨fun _ => by norm_num, convex_univ, by simp⟩

/-- `C171_push`: an obstacle at distance 200. -/
example : ((1 : ℝ) - 0 = 2 - 1) ∧ 0 < (Sense.mk (fun _ : ℝ => (200 : ℝ)) fun _ => 1).dist 1 ∧
    (Sense.mk (fun _ : ℝ => (200 : ℝ)) fun _ => 1).dist 1 ≤ 300 ∧
    (Sense.mk (fun _ : ℝ => (200 : ℝ)) fun _ => 1).away 1 ≠ 0 := by
  norm_num

/-- `C171_rest`: three points on a line; weights of zero or one do not enlarge vectors. -/
example : Even [0, (1 : ℝ), 2] ∧ ∀ f : ℝ, ‖id f‖ ≤ ‖f‖ :=
  ⟨⟨by norm_num, trivial⟩, fun _ => le_refl _⟩

/-- A point between its neighbours' sides moves halfway to their middle. -/
example (d2 : ℝ → ℝ → ℝ) (sampling : ℝ) : optimize (Sense.mk (fun _ : ℝ => (301 : ℝ)) id) id d2 sampling 1 [20, 40, 20] =
    some [20, 30, 20] := by
  have hd : (300 : ℝ) < (Sense.mk (fun _ : ℝ => (301 : ℝ)) id).dist 40 := by norm_num
  have hn : neighborForce (20 : ℝ) 40 20 = -10 := by
    unfold neighborForce clamp
    have e : (0.5 : ℝ) • ((0.5 : ℝ) • (((20 : ℝ) - 40) + (20 - 40))) = -10 := by
      simp only [smul_eq_mul]; norm_num
    rw [e, if_neg (by rw [Real.norm_eq_abs, abs_neg, abs_of_nonneg (by norm_num)]; norm_num)]
  have hm : movePoint (Sense.mk (fun _ : ℝ => (301 : ℝ)) id) id (20 : ℝ) 40 20 = 30 := by
    unfold movePoint
    rw [obstacle_far hd, hn]
    simp only [id]; norm_num
  simp only [optimize, round, elasticBandLoop, moveFrom, checkRemoveNodes, removeFrom, hm]

end Simox.Band
