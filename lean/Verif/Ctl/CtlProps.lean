import Mathlib.Algebra.Order.BigOperators.Group.List
import Mathlib.Algebra.Order.Field.Rat
import Mathlib.Tactic.NormNum
import Verif.Ctl.Lemmas

/-!
# Motor controllers: properties
-/

set_option linter.unusedSectionVars false

namespace Simox.Ctl

section
variable {K : Type} [Field K]

/-- A controller that gets gains, after any calls before, and then errors, has the output of these errors, their integral, and their last change. Nothing from before counts. -/
theorem C151_output (c : Pid K) (before : List (PidOp K)) (p i d : K) (us : List (K × K)) (e dt : K) :
    ((c.after (before ++ .gains p i d :: us.map fun u => .update u.1 u.2)).update e dt).1 = pidOut p i d (us ++ [(e, dt)]) := by
  have h : ∀ (c : Pid K), c.after (us.map fun u => .update u.1 u.2) = c.fed us := by
    intro c
    unfold Pid.after Pid.fed
    rw [List.foldl_map]
    rfl
  have h2 : c.after (before ++ .gains p i d :: us.map fun u => .update u.1 u.2) = (Pid.new p i d).after (us.map fun u => .update u.1 u.2) := by
    unfold Pid.after
    rw [List.foldl_append, List.foldl_cons]
    rfl
  rw [h2, h]
  exact Pid.out_state (c := Pid.new p i d) ⟨rfl, rfl⟩ us (e, dt)

/-- The same for a controller that was just made. -/
theorem C151_new (p i d : K) (us : List (K × K)) (e dt : K) :
    (((Pid.new p i d).after (us.map fun u => .update u.1 u.2)).update e dt).1 = pidOut p i d (us ++ [(e, dt)]) := C151_output (Pid.new p i d) [] p i d us e dt

/-- The gains are those that were set last, whatever was called since then, and `reset` is to set them again. -/
theorem C151_gains (c : Pid K) (before after : List (PidOp K)) (p i d : K) (h : ∀ o ∈ after, ∀ p i d, o ≠ .gains p i d) :
    let c' := c.after (before ++ .gains p i d :: after)
    (c'.gainP, c'.gainI, c'.gainD) = (p, i, d) ∧ c'.after [.reset] = c'.after [.gains p i d] := by
  have key : ∀ (c : Pid K), (c.gainP, c.gainI, c.gainD) = (p, i, d) → ((c.after after).gainP, (c.after after).gainI, (c.after after).gainD) = (p, i, d) := by
    induction after with
    | nil => exact fun c hc => hc
    | cons o after ih =>
      intro c hc
      refine ih (fun o ho => h o (List.mem_cons_of_mem _ ho)) (PidOp.apply c o) ?_
      cases o with
      | update e dt => exact hc
      | reset => exact hc
      | gains p i d => exact absurd rfl (h _ (by simp) p i d)
  have hg : ((c.after (before ++ .gains p i d :: after)).gainP, (c.after (before ++ .gains p i d :: after)).gainI, (c.after (before ++ .gains p i d :: after)).gainD) = (p, i, d) := by
    have e : c.after (before ++ .gains p i d :: after) = ((c.after before).gains p i d).after after := by
      unfold Pid.after
      rw [List.foldl_append, List.foldl_cons]
      rfl
    rw [e]
    exact key _ rfl
  refine ⟨hg, ?_⟩
  simp only [Prod.mk.injEq] at hg
  have e : ∀ c : Pid K, c.gainP = p → c.gainI = i → c.gainD = d → c.after [.reset] = c.after [.gains p i d] := by
    rintro c rfl rfl rfl
    rfl
  exact e _ hg.1 hg.2.1 hg.2.2

/-- In every mode for which the header has a diagram, the outputs of the controller are those of the diagram. -/
theorem C152_diagram_partial {c : Torque K} (h1 : c.position.Fresh) (h2 : c.velocity.Fresh) (h3 : c.torque.Fresh) {m : Modes} (hm : m.Documented) (ss : List (Step K)) : c.outputs m ss = diagram m c ss := by
  obtain ⟨p, v, t⟩ := m
  cases p <;> cases v <;> cases t
  · exact outputs_off ss c
  · rw [outputs_t, Pid.outputs_signal h3]; rfl
  · rw [outputs_v, Pid.outputs_signal h2]; rfl
  · exact absurd (hm rfl) (by decide)
  · rw [outputs_p, Pid.outputs_signal h1]; rfl
  · exact absurd (hm rfl) (by decide)
  · rw [outputs_pv, Pid.outputs_signal h1, Pid.outputs_signal h2]; rfl
  · rw [outputs_pvt, Pid.outputs_signal h1, Pid.outputs_signal h2, Pid.outputs_signal h3]; rfl

theorem after_snoc (ss : List (Step K × Modes)) (s : Step K) (m : Modes) : ∀ c : Torque K, c.after (ss ++ [(s, m)]) = ((c.after ss).update s.position s.velocity s.torque m s.dt).2 := by
  induction ss with
  | nil => exact fun c => rfl
  | cons x ss ih => exact fun c => ih _

/-- After any steps, what is not controlled in the last one is forgotten: its controller is as new. The gains are never changed. -/
theorem C152_forgets (c : Torque K) (ss : List (Step K × Modes)) (s : Step K) (m : Modes) :
    (m.position = false → (c.after (ss ++ [(s, m)])).position = Pid.new c.position.gainP c.position.gainI c.position.gainD) ∧
    (m.velocity = false → (c.after (ss ++ [(s, m)])).velocity = Pid.new c.velocity.gainP c.velocity.gainI c.velocity.gainD) ∧
    (m.torque = false → (c.after (ss ++ [(s, m)])).torque = Pid.new c.torque.gainP c.torque.gainI c.torque.gainD) := by
  have key : ∀ (ss : List (Step K × Modes)) (c : Torque K), ((c.after ss).position.gainP = c.position.gainP ∧ (c.after ss).position.gainI = c.position.gainI ∧ (c.after ss).position.gainD = c.position.gainD) ∧
      ((c.after ss).velocity.gainP = c.velocity.gainP ∧ (c.after ss).velocity.gainI = c.velocity.gainI ∧ (c.after ss).velocity.gainD = c.velocity.gainD) ∧
      ((c.after ss).torque.gainP = c.torque.gainP ∧ (c.after ss).torque.gainI = c.torque.gainI ∧ (c.after ss).torque.gainD = c.torque.gainD) := by
    intro ss
    induction ss with
    | nil => exact fun c => ⟨⟨rfl, rfl, rfl⟩, ⟨rfl, rfl, rfl⟩, rfl, rfl, rfl⟩
    | cons x ss ih =>
      intro c
      obtain ⟨s, p, v, t⟩ := x
      have := ih (c.update s.position s.velocity s.torque ⟨p, v, t⟩ s.dt).2
      cases p <;> cases v <;> cases t <;> exact this
  obtain ⟨⟨a1, a2, a3⟩, ⟨b1, b2, b3⟩, c1, c2, c3⟩ := key ss c
  rw [after_snoc]
  refine ⟨fun h => ?_, fun h => ?_, fun h => ?_⟩
  · simp [Torque.update, h, Pid.reset, Pid.gains, Pid.new, a1, a2, a3]
  · simp [Torque.update, h, Pid.reset, Pid.gains, Pid.new, b1, b2, b3]
  · simp [Torque.update, h, Pid.reset, Pid.gains, Pid.new, c1, c2, c3]

/-- If position and torque are controlled, but not the velocity, the torque has no effect; nor if velocity and torque are controlled. -/
theorem C152_torque_false (c : Torque K) (ss : List (Step K)) (f : Step K → K) :
    c.outputs ⟨true, false, true⟩ ss = c.outputs ⟨true, false, true⟩ (ss.map fun s => { s with torque := f s }) ∧
    c.outputs ⟨false, true, true⟩ ss = c.outputs ⟨false, true, true⟩ (ss.map fun s => { s with torque := f s }) := by
  rw [outputs_p, outputs_p, outputs_v, outputs_v, List.map_map, List.map_map]
  exact ⟨rfl, rfl⟩

end

section
variable {K : Type} [Field K] [LinearOrder K] [IsStrictOrderedRing K]

theorem update_velocity (c : Velocity K) (e t : K) (m : Modes) {dt : K} (hd : 0 < dt) :
    (c.update e t m dt).1 = c.velocity + limitVelocity (c.maxAcceleration * dt) (limitVelocity c.maxVelocity ((if m.position then (c.position.update e dt).1 else 0) + if m.velocity then t else 0) - c.velocity) := by
  unfold Velocity.update
  simp only
  rw [limitAcceleration_eq _ _ _ hd]
  cases m.position <;> rfl

theorem kept (ops : List (VelOp K)) : ∀ c : Velocity K, (c.after ops).maxVelocity = c.maxVelocity ∧ (c.after ops).maxAcceleration = c.maxAcceleration := by
  induction ops with
  | nil => exact fun c => ⟨rfl, rfl⟩
  | cons o ops ih =>
    intro c
    have := ih (VelOp.apply c o)
    cases o <;> exact this

/-- Whatever is called, velocities are within the limit, as long as no other velocity was set from outside. -/
theorem C153_limit {c : Velocity K} (hm : 0 < c.maxVelocity) (hc : |c.velocity| ≤ c.maxVelocity) (ops : List (VelOp K)) (ho : ∀ o ∈ ops, o.Within c.maxVelocity) (e t : K) (m : Modes) {dt : K} (hd : 0 < dt) :
    |((c.after ops).update e t m dt).1| ≤ c.maxVelocity := by
  have step : ∀ (c : Velocity K), 0 < c.maxVelocity → |c.velocity| ≤ c.maxVelocity → ∀ (e t : K) (m : Modes) (dt : K), 0 < dt → |(c.update e t m dt).1| ≤ c.maxVelocity := by
    intro c hm hc e t m dt hd
    rw [update_velocity c e t m hd]
    exact between hc (limitVelocity_le hm _)
  have all : ∀ (ops : List (VelOp K)) (c : Velocity K), 0 < c.maxVelocity → |c.velocity| ≤ c.maxVelocity → (∀ o ∈ ops, o.Within c.maxVelocity) → |(c.after ops).velocity| ≤ c.maxVelocity := by
    intro ops
    induction ops with
    | nil => exact fun c _ h _ => h
    | cons o ops ih =>
      intro c hm hc ho
      have h1 := ho o (by simp)
      have h2 : (VelOp.apply c o).maxVelocity = c.maxVelocity := by cases o <;> rfl
      have h3 : |(VelOp.apply c o).velocity| ≤ c.maxVelocity := by
        cases o with
        | update e t m dt => exact step c hm hc e t m dt h1
        | current v => exact h1
        | reset => exact hc
        | gains p i d => exact hc
      have := ih (VelOp.apply c o) (h2 ▸ hm) (h2 ▸ h3) (fun o ho' => h2 ▸ ho o (List.mem_cons_of_mem _ ho'))
      rw [h2] at this
      exact this
  have hk := (kept ops c).1
  have := step (c.after ops) (hk ▸ hm) (hk ▸ all ops c hm hc ho) e t m dt hd
  rw [hk] at this
  exact this

/-- Between two steps the velocity changes by no more than the limit of accelerations allows. -/
theorem C153_acceleration (c : Velocity K) (ha : 0 < c.maxAcceleration) (e t : K) (m : Modes) {dt : K} (hd : 0 < dt) : |(c.update e t m dt).1 - c.velocity| ≤ c.maxAcceleration * dt := by
  rw [update_velocity c e t m hd, add_sub_cancel_left]
  exact limitVelocity_le (mul_pos ha hd) _

/-- Without limits, the velocity is the sum of the position controller's output and the velocity that is asked for, in the modes that are on. -/
theorem C153_free (c : Velocity K) (hm : c.maxVelocity ≤ 0) (ha : c.maxAcceleration ≤ 0) (e t : K) (m : Modes) {dt : K} (hd : 0 < dt) :
    (c.update e t m dt).1 = (if m.position then (c.position.update e dt).1 else 0) + if m.velocity then t else 0 := by
  rw [update_velocity c e t m hd, limitVelocity_off hm, limitVelocity_off (mul_nonpos_of_nonpos_of_nonneg ha hd.le)]
  ring

/-- Towards a velocity, the distance to it, or to the limit if it is beyond, shrinks as fast as the limit of accelerations allows, until it is reached, and then it stays. There is no overshoot. -/
theorem C153_settles {c : Velocity K} (ha : 0 < c.maxAcceleration) (target : K) (dts : List K) (hd : ∀ dt ∈ dts, 0 < dt) :
    |limitVelocity c.maxVelocity target - (towards c target dts).velocity| = max 0 (|limitVelocity c.maxVelocity target - c.velocity| - c.maxAcceleration * dts.sum) := by
  induction dts generalizing c with
  | nil =>
    rw [List.sum_nil, mul_zero, sub_zero, max_eq_right (abs_nonneg _)]
    rfl
  | cons dt dts ih =>
    have h0 := hd dt (by simp)
    have := ih (c := (c.update 0 target ⟨false, true, false⟩ dt).2) ha (fun x hx => hd x (List.mem_cons_of_mem _ hx))
    have hv : (c.update 0 target ⟨false, true, false⟩ dt).2.velocity = c.velocity + limitVelocity (c.maxAcceleration * dt) (limitVelocity c.maxVelocity target - c.velocity) := by
      have := update_velocity c 0 target ⟨false, true, false⟩ h0
      simp only [Bool.false_eq_true, if_false, if_true, zero_add] at this
      exact this
    have h1 : towards c target (dt :: dts) = towards (c.update 0 target ⟨false, true, false⟩ dt).2 target dts := rfl
    have h2 : (c.update 0 target ⟨false, true, false⟩ dt).2.maxVelocity = c.maxVelocity := rfl
    have h3 : (c.update 0 target ⟨false, true, false⟩ dt).2.maxAcceleration = c.maxAcceleration := rfl
    have hs : 0 ≤ dts.sum := List.sum_nonneg fun x hx => (hd x (List.mem_cons_of_mem _ hx)).le
    rw [h1, ← h2, this, h2, h3, hv, ← sub_sub, limitVelocity_rest (mul_pos ha h0), max_rest (mul_nonneg ha.le hs), List.sum_cons]
    congr 1
    ring

theorem loop_step {P dt : K} {c : Velocity K} (hp : c.position.gainP = P) (hi : c.position.gainI = 0) (hdg : c.position.gainD = 0) (ha : c.maxAcceleration ≤ 0) (hd : 0 < dt) (e : K) :
    (c.update e 0 ⟨true, false, false⟩ dt).1 = limitVelocity c.maxVelocity (P * e) := by
  rw [update_velocity c _ _ _ hd, limitVelocity_off (mul_nonpos_of_nonpos_of_nonneg ha hd.le)]
  simp [Pid.update, hp, hi, hdg, mul_comm]

/-- A joint that has the velocity of the controller comes nearer to its position with every step and never passes it, if the gain is not too large for the length of the steps and accelerations are not limited: far away by
the largest velocity, near by a fixed part of the distance. -/
theorem C154_approach_partial {P dt : K} {c : Velocity K} (hp : c.position.gainP = P) (hi : c.position.gainI = 0) (hdg : c.position.gainD = 0) (ha : c.maxAcceleration ≤ 0) (hm : 0 < c.maxVelocity)
    (hd : 0 < dt) (hP : 0 < P) (hPd : P * dt ≤ 1) (e : K) (n : ℕ) :
    0 ≤ e * (closedLoop dt n (e, c)).1 ∧ |(closedLoop dt (n + 1) (e, c)).1| = |(closedLoop dt n (e, c)).1| - dt * min (P * |(closedLoop dt n (e, c)).1|) c.maxVelocity := by
  have step : ∀ (M : K), 0 < M → ∀ e : K, 0 ≤ e * (e - limitVelocity M (P * e) * dt) ∧ |e - limitVelocity M (P * e) * dt| = |e| - dt * min (P * |e|) M := by
    intro M hM
    have key : ∀ e : K, 0 ≤ e → 0 ≤ e * (e - limitVelocity M (P * e) * dt) ∧ |e - limitVelocity M (P * e) * dt| = |e| - dt * min (P * |e|) M := by
      intro e he
      rw [limitVelocity_pos hM (mul_nonneg hP.le he), abs_of_nonneg he]
      have h1 : min (P * e) M * dt ≤ e := by
        calc min (P * e) M * dt ≤ P * e * dt := mul_le_mul_of_nonneg_right (min_le_left _ _) hd.le
          _ = P * dt * e := by ring
          _ ≤ 1 * e := mul_le_mul_of_nonneg_right hPd he
          _ = e := one_mul e
      refine ⟨mul_nonneg he (by linarith), ?_⟩
      rw [abs_of_nonneg (by linarith)]
      ring
    intro e
    rcases le_total 0 e with he | he
    · exact key e he
    · have := key (-e) (by linarith)
      rw [mul_neg, limitVelocity_neg, abs_neg] at this
      have e1 : -e - -limitVelocity M (P * e) * dt = -(e - limitVelocity M (P * e) * dt) := by ring
      rw [e1, abs_neg, neg_mul_neg] at this
      exact this
  induction n generalizing e c with
  | zero =>
    have h := loop_step (e := e) hp hi hdg ha hd
    refine ⟨mul_self_nonneg e, ?_⟩
    change |e - (c.update e 0 ⟨true, false, false⟩ dt).1 * dt| = |e| - dt * min (P * |e|) c.maxVelocity
    rw [h]
    exact (step _ hm e).2
  | succ n ih =>
    have h := loop_step (e := e) hp hi hdg ha hd
    have e1 : ∀ k, closedLoop dt (k + 1) (e, c) = closedLoop dt k (e - (c.update e 0 ⟨true, false, false⟩ dt).1 * dt, (c.update e 0 ⟨true, false, false⟩ dt).2) := fun k => rfl
    have := ih (c := (c.update e 0 ⟨true, false, false⟩ dt).2) hp hi hdg ha hm (e - (c.update e 0 ⟨true, false, false⟩ dt).1 * dt)
    rw [← e1, ← e1] at this
    refine ⟨?_, this.2⟩
    have h1 := (step _ hm e).1
    rw [← h] at h1
    rcases lt_trichotomy (e - (c.update e 0 ⟨true, false, false⟩ dt).1 * dt) 0 with hx | hx | hx
    · have h2 : (closedLoop dt (n + 1) (e, c)).1 ≤ 0 := by
        by_contra hc
        exact absurd this.1 (not_le.2 (mul_neg_of_neg_of_pos hx (not_le.1 hc)))
      have h3 : e ≤ 0 := by
        by_contra hc
        exact absurd h1 (not_le.2 (mul_neg_of_pos_of_neg (not_le.1 hc) hx))
      exact mul_nonneg_of_nonpos_of_nonpos h3 h2
    · rw [hx] at this
      have zero : ∀ (n : ℕ) (c : Velocity K), c.position.gainP = P → c.position.gainI = 0 → c.position.gainD = 0 → c.maxAcceleration ≤ 0 → (closedLoop dt n (0, c)).1 = 0 := by
        intro n
        induction n with
        | zero => exact fun c _ _ _ _ => rfl
        | succ n ih =>
          intro c h1 h2 h3 h4
          have h5 : (c.update 0 0 ⟨true, false, false⟩ dt).1 = 0 := by
            rw [loop_step h1 h2 h3 h4 hd, mul_zero]
            unfold limitVelocity
            rw [abs_zero, if_neg]
            exact fun h => absurd h.2 (not_lt.2 h.1.le)
          have := ih (c.update 0 0 ⟨true, false, false⟩ dt).2 h1 h2 h3 h4
          have e2 : closedLoop dt (n + 1) (0, c) = closedLoop dt n (0 - (c.update 0 0 ⟨true, false, false⟩ dt).1 * dt, (c.update 0 0 ⟨true, false, false⟩ dt).2) := rfl
          rw [e2, h5, zero_mul, sub_zero]
          exact this
      rw [e1, hx, zero n _ (by exact hp) (by exact hi) (by exact hdg) (by exact ha), mul_zero]
    · have h2 : 0 ≤ (closedLoop dt (n + 1) (e, c)).1 := by
        by_contra hc
        exact absurd this.1 (not_le.2 (mul_neg_of_pos_of_neg hx (not_le.1 hc)))
      have h3 : 0 ≤ e := by
        by_contra hc
        exact absurd h1 (not_le.2 (mul_neg_of_neg_of_pos (not_le.1 hc) hx))
      exact mul_nonneg h3 h2

/-- The distance is below any geometric sequence whose factor the gain and the velocity allow at the start. -/
theorem C154_rate_partial {P dt r : K} {c : Velocity K} (hp : c.position.gainP = P) (hi : c.position.gainI = 0) (hdg : c.position.gainD = 0) (ha : c.maxAcceleration ≤ 0) (hm : 0 < c.maxVelocity)
    (hd : 0 < dt) (hP : 0 < P) (hPd : P * dt ≤ 1) (e : K) (h0 : 0 ≤ r) (h1 : r ≤ P * dt) (h2 : r * |e| ≤ c.maxVelocity * dt) (n : ℕ) : |(closedLoop dt n (e, c)).1| ≤ |e| * (1 - r) ^ n := by
  induction n with
  | zero => rw [pow_zero, mul_one]; exact le_rfl
  | succ n ih =>
    rw [(C154_approach_partial hp hi hdg ha hm hd hP hPd e n).2]
    obtain ⟨x, hx⟩ : ∃ x, x = |(closedLoop dt n (e, c)).1| := ⟨_, rfl⟩
    rw [← hx] at ih ⊢
    have hx0 : 0 ≤ x := hx ▸ abs_nonneg _
    have hr1 : 0 ≤ 1 - r := by linarith
    have hr2 : (1 - r) ^ n ≤ 1 := pow_le_one₀ hr1 (by linarith)
    have hxe : x ≤ |e| := ih.trans (by simpa using mul_le_mul_of_nonneg_left hr2 (abs_nonneg e))
    have h3 : r * x ≤ dt * min (P * x) c.maxVelocity := by
      rw [mul_min_of_nonneg _ _ hd.le]
      refine le_min ?_ ?_
      · calc r * x ≤ P * dt * x := mul_le_mul_of_nonneg_right h1 hx0
          _ = dt * (P * x) := by ring
      · calc r * x ≤ r * |e| := mul_le_mul_of_nonneg_left hxe h0
          _ ≤ c.maxVelocity * dt := h2
          _ = dt * c.maxVelocity := by ring
    calc x - dt * min (P * x) c.maxVelocity ≤ x * (1 - r) := by linarith
      _ ≤ |e| * (1 - r) ^ n * (1 - r) := mul_le_mul_of_nonneg_right ih hr1
      _ = |e| * (1 - r) ^ (n + 1) := by ring

end

/-! Examples, with rational numbers. -/

/-- A PID controller with all three terms: a history with a reset. -/
example : (((Pid.new (1 : ℚ) 0 0).after [.update 7 1, .gains 1 2 3, .update 4 1]).update 6 2).1 = 41 := by
  norm_num [Pid.after, PidOp.apply, Pid.update, Pid.gains, Pid.new]

/-- The gains are looked for behind the last call that sets them. -/
example : ∀ o ∈ ([.update 4 1, .reset] : List (PidOp ℚ)), ∀ p i d, o ≠ .gains p i d := by simp

/-- The controller the constructor makes meets the hypotheses of `C152_diagram_partial`, in five of the seven modes that control something. -/
example : (Pid.new (1 / 2 : ℚ) (1 / 20) 0).Fresh ∧ (⟨true, true, true⟩ : Modes).Documented ∧ (⟨true, true, false⟩ : Modes).Documented ∧ (⟨true, false, false⟩ : Modes).Documented ∧
    (⟨false, true, false⟩ : Modes).Documented ∧ (⟨false, false, true⟩ : Modes).Documented := by
  simp [Pid.Fresh, Pid.new, Modes.Documented]

/-- A new controller with limits meets the hypotheses of `C153_limit`, `C153_acceleration` and `C153_settles`. -/
example : 0 < (Velocity.new (2 : ℚ) 3 0).maxVelocity ∧ |(Velocity.new (2 : ℚ) 3 0).velocity| ≤ (Velocity.new (2 : ℚ) 3 0).maxVelocity ∧ 0 < (Velocity.new (2 : ℚ) 3 0).maxAcceleration ∧
    (∀ o ∈ ([.update 5 1 ⟨true, true, false⟩ (1 / 100), .current (-1), .reset] : List (VelOp ℚ)), o.Within 2) := by
  norm_num [Velocity.new, VelOp.Within]

/-- A new controller with a limit for velocities only meets the hypotheses of `C154_rate_partial`. -/
example : (Velocity.new (2 : ℚ) (-1) 0).position.gainP = 10 ∧ (Velocity.new (2 : ℚ) (-1) 0).position.gainI = 0 ∧ (Velocity.new (2 : ℚ) (-1) 0).position.gainD = 0 ∧
    (Velocity.new (2 : ℚ) (-1) 0).maxAcceleration ≤ 0 ∧ (10 : ℚ) * (1 / 20) ≤ 1 ∧ (1 / 10 : ℚ) ≤ 10 * (1 / 20) ∧ (1 / 10 : ℚ) * |1| ≤ 2 * (1 / 20) := by
  norm_num [Velocity.new, Pid.new]

/-- A velocity that was set from outside stays beyond the limit, although it is limited. -/
theorem C153_current_false : ∃ c : Velocity ℚ, c.maxVelocity = 2 ∧ (c.update 0 1 ⟨false, true, false⟩ 1).1 = 6 := by
  refine ⟨(Velocity.new 2 3 0).setCurrent 9, rfl, ?_⟩
  norm_num [Velocity.update, Velocity.setCurrent, Velocity.new, limitVelocity, limitAcceleration, abs_of_neg, abs_of_pos]

/-- Errors from before count, although positions were not controlled in the meantime; the controller for torques forgets them. -/
theorem C153_stale_false : ∃ c : Velocity ℚ, (c.after [.update 5 0 ⟨true, false, false⟩ 1]).velocity = 5 ∧
    ((c.after [.update 5 0 ⟨true, false, false⟩ 1, .update 0 0 ⟨false, false, false⟩ 1]).update 0 0 ⟨true, false, false⟩ 1).1 = 5 := by
  refine ⟨(Velocity.new (-1) (-1) 0).gains 0 1 0, ?_, ?_⟩ <;>
  norm_num [Velocity.update, Velocity.after, VelOp.apply, Velocity.gains, Pid.gains, Pid.update, Velocity.new, limitVelocity, limitAcceleration]

/-- The jerk is not limited: from one step to the next the acceleration goes from the limit to its opposite. -/
theorem C153_jerk_false : ∃ c : Velocity ℚ, c.maxJerk = 1 ∧ (c.after [.update 0 5 ⟨false, true, false⟩ 1]).acceleration = 3 ∧ (c.after [.update 0 5 ⟨false, true, false⟩ 1, .update 0 (-5) ⟨false, true, false⟩ 1]).acceleration = -3 := by
  refine ⟨Velocity.new (-1) 3 1, by norm_num [Velocity.new], ?_, ?_⟩ <;>
  norm_num [Velocity.update, Velocity.after, VelOp.apply, Velocity.new, limitVelocity, limitAcceleration, abs_of_neg, abs_of_pos]

/-- With a limit for accelerations, a joint passes its position. -/
theorem C154_overshoot_false : ∃ c : Velocity ℚ, c.position = Pid.new 10 0 0 ∧ c.velocity = 0 ∧ (closedLoop (1 / 10) 3 (1, c)).1 = 7 / 10 ∧ (closedLoop (1 / 10) 9 (1, c)).1 < 0 := by
  refine ⟨Velocity.new 10 5 0, rfl, rfl, ?_, ?_⟩ <;>
  norm_num [closedLoop, Velocity.update, Velocity.new, Pid.new, Pid.update, limitVelocity, limitAcceleration, abs_of_neg, abs_of_pos]

end Simox.Ctl
