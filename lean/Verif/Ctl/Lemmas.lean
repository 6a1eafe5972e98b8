import Mathlib.Tactic.Ring
import Mathlib.Tactic.Linarith
import Mathlib.Tactic.FieldSimp
import Verif.Ctl.Spec

/-!
# Motor controllers: lemmas
-/

set_option linter.unusedSectionVars false

namespace Simox.Ctl

section
variable {K : Type} [Field K]

/-- The outputs of a controller for a list of errors. -/
def Pid.outputs (c : Pid K) : List (K × K) → List K
  | [] => []
  | u :: us => (c.update u.1 u.2).1 :: Pid.outputs (c.update u.1 u.2).2 us

/-- The controller after a list of errors. -/
def Pid.fed (c : Pid K) (us : List (K × K)) : Pid K := us.foldl (fun c u => (c.update u.1 u.2).2) c

theorem Pid.outputs_snoc (us : List (K × K)) (u : K × K) : ∀ c : Pid K, c.outputs (us ++ [u]) = c.outputs us ++ [((c.fed us).update u.1 u.2).1] := by
  induction us with
  | nil => exact fun c => rfl
  | cons v us ih =>
    intro c
    rw [List.cons_append, Pid.outputs, ih, Pid.outputs, List.cons_append]
    rfl

theorem Pid.fed_snoc (c : Pid K) (us : List (K × K)) (u : K × K) : c.fed (us ++ [u]) = ((c.fed us).update u.1 u.2).2 := by
  rw [Pid.fed, List.foldl_append]
  rfl

theorem Pid.fed_state {c : Pid K} (h : c.Fresh) (us : List (K × K)) :
    (c.fed us) = ⟨c.gainP, c.gainI, c.gainD, (us.map fun u => u.1 * u.2).sum, (us.getLastD (0, 1)).1⟩ := by
  induction us using List.reverseRecOn with
  | nil =>
    obtain ⟨p, i, d, s, l⟩ := c
    obtain ⟨h1, h2⟩ := h
    simp only at h1 h2
    subst h1 h2
    rfl
  | append_singleton us u ih =>
    rw [Pid.fed_snoc, ih]
    simp [Pid.update]

theorem Pid.out_state {c : Pid K} (h : c.Fresh) (us : List (K × K)) (u : K × K) : ((c.fed us).update u.1 u.2).1 = pidOut c.gainP c.gainI c.gainD (us ++ [u]) := by
  rw [Pid.fed_state h]
  simp [Pid.update, pidOut]
  ring

theorem inits_snoc {A : Type} (us : List A) (u : A) : (us ++ [u]).inits = us.inits ++ [us ++ [u]] := by
  induction us with
  | nil => rfl
  | cons v us ih => rw [List.cons_append, List.inits_cons, ih, List.inits_cons, List.map_append]; rfl

theorem inits_ne_nil {A : Type} (us : List A) : us.inits ≠ [] := by
  cases us <;> simp

theorem signal_snoc (p i d : K) (us : List (K × K)) (u : K × K) : signal p i d (us ++ [u]) = signal p i d us ++ [pidOut p i d (us ++ [u])] := by
  unfold signal
  rw [inits_snoc, List.tail_append_of_ne_nil (inits_ne_nil us), List.map_append]
  rfl

theorem Pid.outputs_signal {c : Pid K} (h : c.Fresh) (us : List (K × K)) : c.outputs us = signal c.gainP c.gainI c.gainD us := by
  induction us using List.reverseRecOn with
  | nil => rfl
  | append_singleton us u ih => rw [Pid.outputs_snoc, ih, Pid.out_state h, signal_snoc]

theorem outputs_pvt (ss : List (Step K)) : ∀ c : Torque K, c.outputs ⟨true, true, true⟩ ss = c.torque.outputs (List.zipWith (fun s v => (s.torque + v, s.dt)) ss
    (c.velocity.outputs (List.zipWith (fun s p => (s.velocity + p, s.dt)) ss (c.position.outputs (ss.map fun s => (s.position, s.dt)))))) := by
  induction ss with
  | nil => exact fun c => rfl
  | cons s ss ih =>
    intro c
    rw [Torque.outputs, ih]
    simp [Torque.update, Pid.outputs]

theorem outputs_pv (ss : List (Step K)) : ∀ c : Torque K, c.outputs ⟨true, true, false⟩ ss =
    c.velocity.outputs (List.zipWith (fun s p => (s.velocity + p, s.dt)) ss (c.position.outputs (ss.map fun s => (s.position, s.dt)))) := by
  induction ss with
  | nil => exact fun c => rfl
  | cons s ss ih =>
    intro c
    rw [Torque.outputs, ih]
    simp [Torque.update, Pid.outputs]

theorem outputs_p (t : Bool) (ss : List (Step K)) : ∀ c : Torque K, c.outputs ⟨true, false, t⟩ ss = c.position.outputs (ss.map fun s => (s.position, s.dt)) := by
  induction ss with
  | nil => exact fun c => rfl
  | cons s ss ih =>
    intro c
    rw [Torque.outputs, ih]
    simp [Torque.update, Pid.outputs]

theorem outputs_v (t : Bool) (ss : List (Step K)) : ∀ c : Torque K, c.outputs ⟨false, true, t⟩ ss = c.velocity.outputs (ss.map fun s => (s.velocity, s.dt)) := by
  induction ss with
  | nil => exact fun c => rfl
  | cons s ss ih =>
    intro c
    rw [Torque.outputs, ih]
    simp [Torque.update, Pid.outputs]

theorem outputs_t (ss : List (Step K)) : ∀ c : Torque K, c.outputs ⟨false, false, true⟩ ss = c.torque.outputs (ss.map fun s => (s.torque, s.dt)) := by
  induction ss with
  | nil => exact fun c => rfl
  | cons s ss ih =>
    intro c
    rw [Torque.outputs, ih]
    simp [Torque.update, Pid.outputs]

theorem outputs_off (ss : List (Step K)) : ∀ c : Torque K, c.outputs ⟨false, false, false⟩ ss = ss.map fun _ => 0 := by
  induction ss with
  | nil => exact fun c => rfl
  | cons s ss ih =>
    intro c
    rw [Torque.outputs, ih]
    simp [Torque.update]

end

section
variable {K : Type} [Field K] [LinearOrder K] [IsStrictOrderedRing K]

theorem limitVelocity_le {m : K} (hm : 0 < m) (v : K) : |limitVelocity m v| ≤ m := by
  unfold limitVelocity
  by_cases h : |v| > m
  · rw [if_pos ⟨hm, h⟩, abs_mul, abs_of_pos hm]
    split <;> simp
  · rw [if_neg (fun k => h k.2)]
    exact le_of_not_gt h

theorem limitVelocity_off {m : K} (hm : m ≤ 0) (v : K) : limitVelocity m v = v := if_neg fun h => absurd h.1 (not_lt.2 hm)

theorem limitVelocity_small {m v : K} (h : |v| ≤ m) : limitVelocity m v = v := if_neg fun k => absurd k.2 (not_lt.2 h)

theorem limitVelocity_neg (m v : K) : limitVelocity m (-v) = -limitVelocity m v := by
  unfold limitVelocity
  rw [abs_neg]
  by_cases h : m > 0 ∧ |v| > m
  · rw [if_pos h, if_pos h]
    rcases lt_trichotomy v 0 with hv | hv | hv
    · rw [if_pos (by linarith), if_neg (by linarith)]; ring
    · rw [hv, abs_zero] at h; exact absurd h.2 (by linarith [h.1])
    · rw [if_neg (by linarith), if_pos (by linarith)]; ring
  · rw [if_neg h, if_neg h]

theorem limitVelocity_pos {m : K} (hm : 0 < m) {v : K} (hv : 0 ≤ v) : limitVelocity m v = min v m := by
  unfold limitVelocity
  rw [abs_of_nonneg hv]
  by_cases h : v > m
  · rw [if_pos ⟨hm, h⟩, if_pos (by linarith), one_mul, min_eq_right (le_of_lt h)]
  · rw [if_neg (fun k => h k.2), min_eq_left (le_of_not_gt h)]

/-- What is left of a difference that is limited. -/
theorem limitVelocity_rest {m : K} (hm : 0 < m) (v : K) : |v - limitVelocity m v| = max 0 (|v| - m) := by
  have key : ∀ v : K, 0 ≤ v → |v - limitVelocity m v| = max 0 (|v| - m) := by
    intro v hv
    rw [limitVelocity_pos hm hv, abs_of_nonneg hv]
    rcases le_total v m with h | h
    · rw [min_eq_left h, sub_self, abs_zero, max_eq_left (by linarith)]
    · rw [min_eq_right h, abs_of_nonneg (by linarith), max_eq_right (by linarith)]
  rcases le_total 0 v with h | h
  · exact key v h
  · have := key (-v) (by linarith)
    rw [limitVelocity_neg, abs_neg] at this
    rw [← this, ← abs_neg]
    congr 1
    ring

theorem limitAcceleration_eq (a v w : K) {dt : K} (hd : 0 < dt) : (limitAcceleration a v w dt).1 = v + limitVelocity (a * dt) (w - v) := by
  unfold limitAcceleration limitVelocity
  have h1 : (a > 0 ∧ |(w - v) / dt| > a) ↔ (a * dt > 0 ∧ |w - v| > a * dt) := by
    rw [abs_div, abs_of_pos hd, gt_iff_lt, gt_iff_lt, lt_div_iff₀ hd, gt_iff_lt, mul_pos_iff_of_pos_right hd]
  have h2 : (w - v) / dt > 0 ↔ w - v > 0 := by rw [gt_iff_lt, div_pos_iff_of_pos_right hd]
  by_cases h : a > 0 ∧ |(w - v) / dt| > a
  · rw [if_pos (h1.1 h), if_pos h]
    simp only
    by_cases h' : w - v > 0
    · rw [if_pos h', if_pos (h2.2 h')]; ring
    · rw [if_neg h', if_neg (fun k => h' (h2.1 k))]; ring
  · rw [if_neg (fun k => h (h1.2 k)), if_neg h]
    ring

/-- The new velocity is between the old one and the one that is asked for. -/
theorem between {m : K} {x v w : K} (hv : |v| ≤ x) (hw : |w| ≤ x) : |v + limitVelocity m (w - v)| ≤ x := by
  rw [abs_le] at hv hw ⊢
  by_cases hm : m ≤ 0
  · rw [limitVelocity_off hm]
    constructor <;> linarith [hw.1, hw.2]
  · have hm : 0 < m := not_le.1 hm
    rcases le_total 0 (w - v) with h | h
    · rw [limitVelocity_pos hm h]
      have h1 : min (w - v) m ≤ w - v := min_le_left _ _
      have h2 : 0 ≤ min (w - v) m := le_min h hm.le
      constructor <;> linarith [hw.1, hw.2, hv.1, hv.2]
    · have e : w - v = -(v - w) := by ring
      rw [e, limitVelocity_neg, limitVelocity_pos hm (by linarith)]
      have h1 : min (v - w) m ≤ v - w := min_le_left _ _
      have h2 : 0 ≤ min (v - w) m := le_min (by linarith) hm.le
      constructor <;> linarith [hw.1, hw.2, hv.1, hv.2]

theorem max_rest {x a b : K} (hb : 0 ≤ b) : max 0 (max 0 (x - a) - b) = max 0 (x - (a + b)) := by
  rcases le_total 0 (x - a) with h | h
  · rw [max_eq_right h]
    congr 1
    ring
  · rw [max_eq_left h, max_eq_left (by linarith), max_eq_left (by linarith)]

end

end Simox.Ctl
