import Verif.Tot.Gen
import Verif.Tot.LimitProps

/-!
# C130: generating a time optimal trajectory
-/

namespace Simox.Tot

namespace Gen

variable {E : Gen}

/-- The speed is not negative, not above the limits, and the position is on the path. -/
def Fine (E : Gen) (s : ℝ × ℝ) : Prop := ¬ E.over s.1 s.2 ∧ 0 ≤ s.2 ∧ s.1 ≤ E.length

theorem cut_nonneg (hv : ∀ x, 0 ≤ E.velMax x) {y x v : ℝ} (h : 0 ≤ v) : 0 ≤ E.cut y x v := by
  unfold cut
  split_ifs
  · exact hv x
  · exact h

/-- **C130** (bisection): the bisection keeps a point within the limits and one above them, and ends with the two not further
apart than the accuracy. -/
theorem bisect_spec (hv : ∀ x, 0 ≤ E.velMax x) : ∀ (fuel : ℕ) (before after : ℝ × ℝ) {b a : ℝ × ℝ}, before.1 ≤ after.1 → 0 ≤ before.2 → 0 ≤ after.2 →
    ¬ E.over before.1 before.2 → E.over after.1 after.2 → E.bisect fuel before after = .ok (b, a) →
    ¬ E.over b.1 b.2 ∧ E.over a.1 a.2 ∧ 0 ≤ b.2 ∧ before.1 ≤ b.1 ∧ b.1 ≤ a.1 ∧ a.1 ≤ after.1 ∧ a.1 - b.1 ≤ E.eps
  | 0, _, _, _, _, _, _, _, _, _, h => by simp [bisect] at h
  | fuel + 1, before, after, b, a, h1, h2, h3, h4, h5, h => by
      unfold bisect at h
      by_cases hc : after.1 - before.1 > E.eps
      · rw [if_pos hc] at h
        simp only at h
        have hm : 0 ≤ E.cut before.1 (0.5 * (before.1 + after.1)) (0.5 * (before.2 + after.2)) := cut_nonneg hv (by linarith)
        by_cases ho : E.over (0.5 * (before.1 + after.1)) (E.cut before.1 (0.5 * (before.1 + after.1)) (0.5 * (before.2 + after.2)))
        · rw [if_pos ho] at h
          obtain ⟨r1, r2, r3, r4, r5, r6, r7⟩ := bisect_spec hv fuel before _ (by simp only; linarith) h2 hm h4 ho h
          simp only at r6
          exact ⟨r1, r2, r3, r4, r5, by linarith, r7⟩
        · rw [if_neg ho] at h
          obtain ⟨r1, r2, r3, r4, r5, r6, r7⟩ := bisect_spec hv fuel _ after (by simp only; linarith) hm h3 ho h5 h
          simp only at r4
          exact ⟨r1, r2, r3, by linarith, r5, r6, r7⟩
      · rw [if_neg hc] at h
        simp only [Out.ok.injEq, Prod.mk.injEq] at h
        obtain ⟨rfl, rfl⟩ := h
        exact ⟨h4, h5, h2, le_rfl, h1, le_rfl, not_lt.1 hc⟩

theorem advanceStep_spec (ht : 0 ≤ E.timeStep) {disc : List (ℝ × Bool)} {pos vel acc : ℝ} (hv : 0 ≤ vel) (hd : ∀ d ∈ disc.head?, pos < d.1)
    (h : 0 ≤ (E.advanceStep disc pos vel acc).2) : pos ≤ (E.advanceStep disc pos vel acc).1 := by
  have key : 0 ≤ vel + E.timeStep * acc → pos ≤ pos + E.timeStep * 0.5 * (vel + (vel + E.timeStep * acc)) := by
    intro h
    have : 0 ≤ E.timeStep * 0.5 * (vel + (vel + E.timeStep * acc)) := mul_nonneg (by linarith) (by linarith)
    linarith
  unfold advanceStep at h ⊢
  match disc with
  | [] => exact key h
  | d :: _ =>
      simp only at h ⊢
      by_cases hx : d.1 < pos + E.timeStep * 0.5 * (vel + (vel + E.timeStep * acc))
      · rw [if_pos hx]; exact (hd d rfl).le
      · rw [if_neg hx] at h ⊢; exact key h

theorem head_dropWhile {pos : ℝ} (disc : List (ℝ × Bool)) :
    ∀ d ∈ (open Classical in disc.dropWhile fun q => decide (q.1 ≤ pos) || !q.2).head?, pos < d.1 := by
  intro d hd
  have := List.head?_dropWhile_not (fun q : ℝ × Bool => (open Classical in decide (q.1 ≤ pos)) || !q.2) disc
  rw [Option.mem_def] at hd
  rw [hd] at this
  simp only [Bool.or_eq_false_iff, decide_eq_false_iff_not, not_le] at this
  exact this.1

/-- The loop of the integration forward. -/
theorem forward_spec (ht : 0 ≤ E.timeStep) (hv : ∀ x, 0 ≤ E.velMax x) : ∀ (fuel : ℕ) (disc : List (ℝ × Bool)) (back : ℝ × ℝ) (old : List (ℝ × ℝ)) (pos vel acc : ℝ)
    {traj : List (ℝ × ℝ)} {valid ret : Bool}, E.Fine back → back.1 ≤ pos → pos ≤ E.length → 0 ≤ vel →
    E.forward fuel disc (back :: old) pos vel acc = .ok (traj, valid, ret) →
    ∃ new, traj = new ++ back :: old ∧ (new ++ [back]).IsChain (fun a b => b.1 ≤ a.1) ∧
      (ret = false → valid = true ∧ new ≠ [] ∧ ∀ s ∈ new, E.Fine s) ∧
      (ret = true → valid = true → ∃ s rest, new = s :: rest ∧ E.length < s.1 ∧ ∀ s ∈ rest, E.Fine s)
  | 0, _, _, _, _, _, _, _, _, _, _, _, _, _, h => by simp [forward] at h
  | fuel + 1, disc, back, old, pos, vel, acc, traj, valid, ret, hb, hbp, hpl, hvel, h => by
      unfold forward at h
      simp only at h
      generalize hdisc : (open Classical in disc.dropWhile fun q => decide (q.1 ≤ pos) || !q.2) = disc' at h
      have hd : ∀ d ∈ disc'.head?, pos < d.1 := by rw [← hdisc]; exact head_dropWhile disc
      by_cases c1 : (E.advanceStep disc' pos vel acc).1 > E.length
      · rw [if_pos c1] at h
        simp only [Out.ok.injEq, Prod.mk.injEq] at h
        obtain ⟨rfl, rfl, rfl⟩ := h
        refine ⟨[E.advanceStep disc' pos vel acc], rfl, ?_, by simp, fun _ _ => ⟨_, [], rfl, c1, by simp⟩⟩
        simp only [List.cons_append, List.nil_append, List.isChain_cons_cons, List.isChain_singleton, and_true]
        linarith
      · rw [if_neg c1] at h
        by_cases c2 : (E.advanceStep disc' pos vel acc).2 < 0
        · rw [if_pos c2] at h
          simp only [Out.ok.injEq, Prod.mk.injEq] at h
          obtain ⟨rfl, rfl, rfl⟩ := h
          exact ⟨[], rfl, by simp, by simp, by simp⟩
        · rw [if_neg c2] at h
          have hpos := advanceStep_spec ht hvel hd (not_lt.1 c2)
          generalize E.advanceStep disc' pos vel acc = s at *
          have hcut : 0 ≤ E.cut pos s.1 s.2 := cut_nonneg hv (not_lt.1 c2)
          generalize E.cut pos s.1 s.2 = v at *
          have glue : ∀ (b : ℝ × ℝ) (new : List (ℝ × ℝ)), E.Fine b → back.1 ≤ b.1 → (new ++ [b]).IsChain (fun a b => b.1 ≤ a.1) →
              ((new ++ [b]) ++ [back]).IsChain (fun a b => b.1 ≤ a.1) := by
            intro b new _ hbb hch
            rw [List.isChain_append]
            refine ⟨hch, by simp, ?_⟩
            intro x hx y hy
            simp at hx hy
            subst hx; subst hy; exact hbb
          by_cases c3 : E.over s.1 v
          · rw [if_pos c3] at h
            cases hbi : E.bisect fuel back (s.1, v) with
            | more => rw [hbi] at h; simp at h
            | ub => rw [hbi] at h; simp at h
            | ok r =>
                obtain ⟨b, a⟩ := r
                rw [hbi] at h
                simp only at h
                obtain ⟨r1, -, r3, r4, r5, r6, -⟩ := bisect_spec hv fuel back (s.1, v) (by simp only; linarith) hb.2.1 hcut hb.1 c3 hbi
                simp only at r6
                have hfine : E.Fine b := ⟨r1, r3, by linarith [not_lt.1 c1]⟩
                cases hle : E.leaves disc' b a with
                | none => rw [hle] at h; simp at h
                | some q =>
                    rw [hle] at h
                    cases q with
                    | true =>
                        simp only [Out.ok.injEq, Prod.mk.injEq] at h
                        obtain ⟨rfl, rfl, rfl⟩ := h
                        exact ⟨[b], rfl, by simpa using r4, fun _ => ⟨rfl, by simp, by simpa using hfine⟩, by simp⟩
                    | false =>
                        simp only at h
                        obtain ⟨new, e1, e2, e3, e4⟩ := forward_spec ht hv fuel disc' b (back :: old) s.1 v _ hfine (by linarith) (not_lt.1 c1) hcut h
                        refine ⟨new ++ [b], by rw [e1]; simp, glue b new hfine r4 e2, ?_, ?_⟩
                        · intro hr
                          obtain ⟨f1, f2, f3⟩ := e3 hr
                          refine ⟨f1, by simp, ?_⟩
                          intro x hx
                          rcases List.mem_append.1 hx with hx | hx
                          · exact f3 x hx
                          · rw [List.mem_singleton.1 hx]; exact hfine
                        · intro hr hval
                          obtain ⟨y, rest, f1, f2, f3⟩ := e4 hr hval
                          refine ⟨y, rest ++ [b], by rw [f1]; rfl, f2, ?_⟩
                          intro x hx
                          rcases List.mem_append.1 hx with hx | hx
                          · exact f3 x hx
                          · rw [List.mem_singleton.1 hx]; exact hfine
          · rw [if_neg c3] at h
            have hfine : E.Fine (s.1, v) := ⟨c3, hcut, not_lt.1 c1⟩
            obtain ⟨new, e1, e2, e3, e4⟩ := forward_spec ht hv fuel disc' (s.1, v) (back :: old) s.1 v _ hfine le_rfl (not_lt.1 c1) hcut h
            refine ⟨new ++ [(s.1, v)], by rw [e1]; simp, glue _ new hfine (by simp only; linarith) e2, ?_, ?_⟩
            · intro hr
              obtain ⟨f1, f2, f3⟩ := e3 hr
              refine ⟨f1, by simp, ?_⟩
              intro x hx
              rcases List.mem_append.1 hx with hx | hx
              · exact f3 x hx
              · rw [List.mem_singleton.1 hx]; exact hfine
            · intro hr hval
              obtain ⟨y, rest, f1, f2, f3⟩ := e4 hr hval
              refine ⟨y, rest ++ [(s.1, v)], by rw [f1]; rfl, f2, ?_⟩
              intro x hx
              rcases List.mem_append.1 hx with hx | hx
              · exact f3 x hx
              · rw [List.mem_singleton.1 hx]; exact hfine

/-- **C130** (forward): the integration forward only appends steps. Their positions do not go back, their speeds are not
negative and within both limits, except for one last step behind the end of the path when the end of the path is reached. -/
theorem C130_forward (ht : 0 ≤ E.timeStep) (hv : ∀ x, 0 ≤ E.velMax x) {fuel : ℕ} {back : ℝ × ℝ} {old : List (ℝ × ℝ)} {acc : ℝ}
    {traj : List (ℝ × ℝ)} {valid ret : Bool} (hb : E.Fine back) (h : E.integrateForward fuel (back :: old) acc = .ok (traj, valid, ret)) :
    ∃ new, traj = new ++ back :: old ∧ (new ++ [back]).IsChain (fun a b => b.1 ≤ a.1) ∧
      (ret = false → valid = true ∧ new ≠ [] ∧ ∀ s ∈ new, E.Fine s) ∧
      (ret = true → valid = true → ∃ s rest, new = s :: rest ∧ E.length < s.1 ∧ ∀ s ∈ rest, E.Fine s) :=
  forward_spec ht hv fuel _ back old _ _ acc hb le_rfl hb.2.2 hb.2.1 h

theorem meet_bounds {start1 start2 front m : ℝ × ℝ} {pos vel : ℝ} (h : E.meet start1 start2 front pos vel = some m) :
    max start1.1 pos - E.eps ≤ m.1 ∧ m.1 ≤ E.eps + min start2.1 front.1 ∧
      (m.2 - start1.2) * (start2.1 - start1.1) = (start2.2 - start1.2) * (m.1 - start1.1) ∧
      (m.2 - vel) * (front.1 - pos) = (front.2 - vel) * (m.1 - pos) := by
  unfold meet at h
  by_cases c1 : front.1 - pos = 0 ∨ start2.1 - start1.1 = 0
  · rw [if_pos c1] at h; simp at h
  · rw [if_neg c1] at h
    push Not at c1
    simp only at h
    by_cases c2 : (front.2 - vel) / (front.1 - pos) - (start2.2 - start1.2) / (start2.1 - start1.1) = 0
    · rw [if_pos c2] at h; simp at h
    · rw [if_neg c2] at h
      generalize hs : (front.2 - vel) / (front.1 - pos) = slope at *
      generalize ht : (start2.2 - start1.2) / (start2.1 - start1.1) = startSlope at *
      rw [div_eq_iff c1.1] at hs
      rw [div_eq_iff c1.2] at ht
      generalize hx : (start1.2 - vel + slope * pos - startSlope * start1.1) / (slope - startSlope) = x at *
      rw [div_eq_iff c2] at hx
      by_cases c3 : max start1.1 pos - E.eps ≤ x ∧ x ≤ E.eps + min start2.1 front.1
      · rw [if_pos c3] at h
        simp only [Option.some.injEq] at h
        subst h
        refine ⟨c3.1, c3.2, ?_, ?_⟩
        · simp only; rw [ht]; ring
        · simp only; rw [hs]
          have : start1.2 + startSlope * (x - start1.1) - vel = slope * (x - pos) := by linarith
          rw [this]; ring
      · rw [if_neg c3] at h; simp at h

/-- **C130** (meeting point): the point where a trajectory backward meets a trajectory forward lies on the line through the two steps
of either, and its position is, up to the accuracy, within both segments. -/
theorem C130_meet {start1 start2 front m : ℝ × ℝ} {pos vel : ℝ} (h : E.meet start1 start2 front pos vel = some m) :
    max start1.1 pos - E.eps ≤ m.1 ∧ m.1 ≤ E.eps + min start2.1 front.1 ∧
      (m.2 - start1.2) * (start2.1 - start1.1) = (start2.2 - start1.2) * (m.1 - start1.1) ∧
      (m.2 - vel) * (front.1 - pos) = (front.2 - vel) * (m.1 - pos) := meet_bounds h

/-- **C130** (meeting point): if two segments that are not parallel have a common point, it is found. -/
theorem C130_meet_complete (he : 0 ≤ E.eps) {start1 start2 front m : ℝ × ℝ} {pos vel : ℝ} (h1 : start1.1 < start2.1) (h2 : pos < front.1)
    (hp : (front.2 - vel) * (start2.1 - start1.1) ≠ (start2.2 - start1.2) * (front.1 - pos))
    (hm1 : start1.1 ≤ m.1 ∧ m.1 ≤ start2.1 ∧ (m.2 - start1.2) * (start2.1 - start1.1) = (start2.2 - start1.2) * (m.1 - start1.1))
    (hm2 : pos ≤ m.1 ∧ m.1 ≤ front.1 ∧ (m.2 - vel) * (front.1 - pos) = (front.2 - vel) * (m.1 - pos)) :
    E.meet start1 start2 front pos vel = some m := by
  have d1 : start2.1 - start1.1 ≠ 0 := by linarith
  have d2 : front.1 - pos ≠ 0 := by linarith
  unfold meet
  rw [if_neg (by push Not; exact ⟨d2, d1⟩)]
  simp only
  generalize hs : (front.2 - vel) / (front.1 - pos) = slope at *
  generalize ht : (start2.2 - start1.2) / (start2.1 - start1.1) = startSlope at *
  rw [div_eq_iff d2] at hs
  rw [div_eq_iff d1] at ht
  obtain ⟨a1, a2, a3⟩ := hm1
  obtain ⟨b1, b2, b3⟩ := hm2
  rw [ht] at a3
  rw [hs] at b3
  have a4 : m.2 - start1.2 = startSlope * (m.1 - start1.1) := mul_right_cancel₀ d1 (by rw [a3]; ring)
  have b4 : m.2 - vel = slope * (m.1 - pos) := mul_right_cancel₀ d2 (by rw [b3]; ring)
  have d3 : slope - startSlope ≠ 0 := by
    intro h0
    apply hp
    rw [hs, ht, sub_eq_zero.1 h0]; ring
  rw [if_neg d3]
  have hx : (start1.2 - vel + slope * pos - startSlope * start1.1) / (slope - startSlope) = m.1 := by
    rw [div_eq_iff d3]; linarith
  rw [hx, if_pos ⟨by linarith [max_le a1 b1], by linarith [le_min a2 b2]⟩, ← a4]
  simp

example : (⟨1, 1, 0, [], fun _ => 1, fun _ => none, fun _ _ _ => 0, fun _ => True, fun _ _ => True, fun _ _ => True, fun _ => none⟩ : Gen).meet
    (0, 0) (1, 1) (1, 0) 0 1 = some (1 / 2, 1 / 2) :=
  C130_meet_complete le_rfl (by norm_num) (by norm_num) (by norm_num) ⟨by norm_num, by norm_num, by norm_num⟩ ⟨by norm_num, by norm_num, by norm_num⟩

/-- **C130** (step): a step does not pass the next discontinuity. Without one it keeps the acceleration for the time step and
moves by the mean of the speeds; cut at a discontinuity, position and speed are on the line of this motion. -/
theorem C130_step {disc : List (ℝ × Bool)} {pos vel acc : ℝ} (hd : ∀ d ∈ disc.head?, pos < d.1) :
    (∀ d ∈ disc.head?, (E.advanceStep disc pos vel acc).1 ≤ d.1) ∧
    ((∀ d ∈ disc.head?, pos + E.timeStep * vel + E.timeStep ^ 2 * acc / 2 ≤ d.1) →
      E.advanceStep disc pos vel acc = (pos + E.timeStep * vel + E.timeStep ^ 2 * acc / 2, vel + E.timeStep * acc)) ∧
    ∀ d ∈ disc.head?, d.1 < pos + E.timeStep * vel + E.timeStep ^ 2 * acc / 2 → (E.advanceStep disc pos vel acc).1 = d.1 ∧
      ((E.advanceStep disc pos vel acc).2 - vel) * (E.timeStep * vel + E.timeStep ^ 2 * acc / 2) = E.timeStep * acc * (d.1 - pos) := by
  have e : pos + E.timeStep * 0.5 * (vel + (vel + E.timeStep * acc)) = pos + E.timeStep * vel + E.timeStep ^ 2 * acc / 2 := by ring
  unfold advanceStep
  match disc, hd with
  | [], _ => simp [e]
  | d :: l, hd =>
      have hd := hd d rfl
      simp only [List.head?_cons, Option.mem_def, Option.some.injEq, forall_eq', e]
      by_cases hx : d.1 < pos + E.timeStep * vel + E.timeStep ^ 2 * acc / 2
      · rw [if_pos hx]
        refine ⟨le_rfl, fun h => absurd hx (not_lt.2 h), fun _ => ⟨rfl, ?_⟩⟩
        have h0 : pos + E.timeStep * vel + E.timeStep ^ 2 * acc / 2 - pos ≠ 0 := by linarith
        simp only
        rw [add_sub_cancel_left, add_sub_cancel_left, show E.timeStep * vel + E.timeStep ^ 2 * acc / 2 = pos + E.timeStep * vel + E.timeStep ^ 2 * acc / 2 - pos by ring,
          div_mul_cancel₀ _ h0]
        ring
      · rw [if_neg hx]
        exact ⟨not_lt.1 hx, fun _ => rfl, fun h => absurd h hx⟩

/-- The loop of the integration backward. -/
theorem backward_spec (ht : 0 ≤ E.timeStep) : ∀ (fuel : ℕ) (start back : List (ℝ × ℝ)) (pos vel acc : ℝ) {traj : List (ℝ × ℝ)}, 0 ≤ vel →
    E.backward fuel start back pos vel acc = .ok (some traj) →
    ∃ new m s1 rest before, traj = back.reverse ++ new ++ m :: s1 :: rest ∧ start = before ++ s1 :: rest ∧ before ≠ [] ∧
      (∀ s ∈ new.head?, s = (pos, vel)) ∧ (∀ s ∈ new, 0 ≤ s.2) ∧ new.IsChain (fun a b => b.1 ≤ a.1) ∧ (back = [] → new ≠ []) ∧
      s1.1 - E.eps ≤ m.1 ∧ ∀ x ∈ (back.reverse ++ new).getLast?, m.1 ≤ E.eps + x.1
  | 0, _, _, _, _, _, _, _, h => by simp [backward] at h
  | fuel + 1, [], _, _, _, _, _, _, h => by simp [backward] at h
  | fuel + 1, [_], _, _, _, _, _, _, h => by simp [backward] at h
  | fuel + 1, start2 :: start1 :: rest, back, pos, vel, acc, traj, hvel, h => by
      unfold backward at h
      by_cases c0 : rest ≠ [] ∨ 0 ≤ pos
      · rw [if_pos c0] at h
        by_cases c1 : start1.1 ≤ pos
        · rw [if_pos c1] at h
          simp only at h
          generalize hv : vel - E.timeStep * acc = v at h
          by_cases c2 : v < 0
          · rw [if_pos c2] at h; simp at h
          · rw [if_neg c2] at h
            have hx : pos - E.timeStep * 0.5 * (v + vel) ≤ pos := by
              have : 0 ≤ E.timeStep * 0.5 * (v + vel) := mul_nonneg (by linarith) (by linarith [not_lt.1 c2])
              linarith
            generalize pos - E.timeStep * 0.5 * (v + vel) = x at *
            cases hm : E.meet start1 start2 (pos, vel) x v with
            | some m =>
                rw [hm] at h
                simp only [Out.ok.injEq, Option.some.injEq] at h
                obtain ⟨b1, b2, -, -⟩ := meet_bounds hm
                refine ⟨[(pos, vel)], m, start1, rest, [start2], by rw [← h]; simp, rfl, by simp, by simp, by simpa using hvel, by simp, by simp, ?_, ?_⟩
                · linarith [le_max_left start1.1 x]
                · simp only [List.getLast?_append, List.getLast?_singleton, Option.some_or, Option.mem_def, Option.some.injEq, forall_eq']
                  exact b2.trans (by linarith [min_le_right start2.1 pos])
            | none =>
                rw [hm] at h
                simp only at h
                obtain ⟨new, m, s1, rest', before, e1, e2, e3, e4, e5, e6, e7, e8, e9⟩ := backward_spec ht fuel _ _ _ _ _ (not_lt.1 c2) h
                refine ⟨(pos, vel) :: new, m, s1, rest', before, by rw [e1]; simp, e2, e3, by simp, ?_, ?_, by simp, e8, ?_⟩
                · intro s hs
                  rcases List.mem_cons.1 hs with rfl | hs
                  · exact hvel
                  · exact e5 s hs
                · rw [List.isChain_cons]
                  refine ⟨?_, e6⟩
                  intro y hy
                  rw [e4 y hy]; exact hx
                · intro y hy
                  exact e9 y (by simpa using hy)
        · rw [if_neg c1] at h
          match rest, back, h with
          | start0 :: rest, front :: back, h =>
              simp only [List.head?_cons] at h
              cases hm : E.meet start0 start1 front pos vel with
              | some m =>
                  rw [hm] at h
                  simp only [Out.ok.injEq, Option.some.injEq] at h
                  obtain ⟨b1, b2, -, -⟩ := meet_bounds hm
                  refine ⟨[], m, start0, rest, [start2, start1], by rw [← h]; simp, rfl, by simp, by simp, by simp, by simp, by simp, ?_, ?_⟩
                  · linarith [le_max_left start0.1 pos]
                  · intro y hy
                    simp at hy
                    rw [← hy]
                    exact b2.trans (by linarith [min_le_right start1.1 front.1])
              | none =>
                  rw [hm] at h
                  simp only at h
                  obtain ⟨new, m, s1, rest', before, e1, e2, e3, e4, e5, e6, e7, e8, e9⟩ := backward_spec ht fuel _ _ _ _ _ hvel h
                  exact ⟨new, m, s1, rest', start2 :: before, e1, by rw [e2]; rfl, by simp, e4, e5, e6, by simp, e8, e9⟩
          | [], _, h => simp at h
          | _ :: _, [], h => simp at h
      · rw [if_neg c0] at h; simp at h

/-- **C130** (backward): if the integration backward succeeds, the new trajectory is a beginning of the old one, the point where the
two meet, and new steps up to the given point. The new steps have speeds that are not negative, their positions grow; the
meeting point is, up to the accuracy, between the step before it and the step after it. -/
theorem C130_backward (ht : 0 ≤ E.timeStep) {fuel : ℕ} {start : List (ℝ × ℝ)} {pos vel acc : ℝ} {traj : List (ℝ × ℝ)} (hv : 0 ≤ vel)
    (h : E.backward fuel start [] pos vel acc = .ok (some traj)) :
    ∃ new m s1 rest before, traj = new ++ m :: s1 :: rest ∧ start = before ++ s1 :: rest ∧ before ≠ [] ∧
      new.head? = some (pos, vel) ∧ (∀ s ∈ new, 0 ≤ s.2) ∧ new.IsChain (fun a b => b.1 ≤ a.1) ∧
      s1.1 - E.eps ≤ m.1 ∧ ∀ x ∈ new.getLast?, m.1 ≤ E.eps + x.1 := by
  obtain ⟨new, m, s1, rest, before, e1, e2, e3, e4, e5, e6, e7, e8, e9⟩ := backward_spec ht fuel start [] pos vel acc hv h
  refine ⟨new, m, s1, rest, before, by simpa using e1, e2, e3, ?_, e5, e6, e8, by simpa using e9⟩
  cases hn : new with
  | nil => exact absurd hn (e7 rfl)
  | cons a l => rw [hn] at e4; rw [List.head?_cons, e4 a rfl]

/-- **C130** (backward): the integration backward never moves an iterator before the first step and never reads an empty list, if
the old trajectory has two or more steps, begins at the beginning of the path, and its last step but one is not behind the
given point. -/
theorem C130_backward_safe {fuel : ℕ} {start2 start1 : ℝ × ℝ} {rest : List (ℝ × ℝ)} {pos vel acc : ℝ} (h0 : ∀ s ∈ (start1 :: rest).getLast?, s.1 = 0)
    (hp : start1.1 ≤ pos) : E.backward fuel (start2 :: start1 :: rest) [] pos vel acc ≠ .ub := by
  have key : ∀ (fuel : ℕ) (start2 start1 : ℝ × ℝ) (rest back : List (ℝ × ℝ)) (pos vel acc : ℝ), (∀ s ∈ (start1 :: rest).getLast?, s.1 = 0) →
      (back = [] → start1.1 ≤ pos) → E.backward fuel (start2 :: start1 :: rest) back pos vel acc ≠ .ub := by
    intro fuel
    induction fuel with
    | zero => intros; simp [backward]
    | succ fuel ih =>
        intro start2 start1 rest back pos vel acc h0 hb
        unfold backward
        by_cases c0 : rest ≠ [] ∨ 0 ≤ pos
        · rw [if_pos c0]
          by_cases c1 : start1.1 ≤ pos
          · rw [if_pos c1]
            simp only
            by_cases c2 : vel - E.timeStep * acc < 0
            · rw [if_pos c2]; simp
            · rw [if_neg c2]
              split
              · simp
              · exact ih _ _ _ _ _ _ _ h0 (by simp)
          · rw [if_neg c1]
            match rest, back, h0, hb, c0 with
            | start0 :: rest, front :: back, h0, _, _ =>
                simp only [List.head?_cons]
                split
                · simp
                · exact ih _ _ _ _ _ _ _ (by simpa using h0) (by simp)
            | [], _, h0, _, c0 =>
                have := h0 start1 (by simp)
                rcases c0 with c0 | c0
                · exact absurd rfl c0
                · exact absurd (by rw [this]; exact c0) c1
            | _ :: _, [], _, hb, _ => exact absurd (hb rfl) c1
        · rw [if_neg c0]; simp
  exact key fuel start2 start1 rest [] pos vel acc h0 (fun _ => hp)

theorem forward_suffix : ∀ (fuel : ℕ) (disc : List (ℝ × Bool)) (old : List (ℝ × ℝ)) (pos vel acc : ℝ) {traj : List (ℝ × ℝ)} {valid ret : Bool},
    E.forward fuel disc old pos vel acc = .ok (traj, valid, ret) → ∃ new, traj = new ++ old
  | 0, _, _, _, _, _, _, _, _, h => by simp [forward] at h
  | fuel + 1, disc, old, pos, vel, acc, traj, valid, ret, h => by
      unfold forward at h
      simp only at h
      generalize (open Classical in disc.dropWhile fun q => decide (q.1 ≤ pos) || !q.2) = disc' at h
      generalize E.advanceStep disc' pos vel acc = s at *
      by_cases c1 : s.1 > E.length
      · rw [if_pos c1] at h
        simp only [Out.ok.injEq, Prod.mk.injEq] at h
        exact ⟨[s], h.1.symm⟩
      · rw [if_neg c1] at h
        by_cases c2 : s.2 < 0
        · rw [if_pos c2] at h
          simp only [Out.ok.injEq, Prod.mk.injEq] at h
          exact ⟨[], h.1.symm⟩
        · rw [if_neg c2] at h
          generalize E.cut pos s.1 s.2 = v at *
          by_cases c3 : E.over s.1 v
          · rw [if_pos c3] at h
            match old, h with
            | [], h => simp at h
            | back :: old, h =>
                simp only at h
                cases hbi : E.bisect fuel back (s.1, v) with
                | more => rw [hbi] at h; simp at h
                | ub => rw [hbi] at h; simp at h
                | ok r =>
                    obtain ⟨b, a⟩ := r
                    rw [hbi] at h
                    simp only at h
                    cases hle : E.leaves disc' b a with
                    | none => rw [hle] at h; simp at h
                    | some q =>
                        rw [hle] at h
                        cases q with
                        | true =>
                            simp only [Out.ok.injEq, Prod.mk.injEq] at h
                            exact ⟨[b], h.1.symm⟩
                        | false =>
                            simp only at h
                            obtain ⟨new, e⟩ := forward_suffix fuel _ _ _ _ _ h
                            exact ⟨new ++ [b], by rw [e]; simp⟩
          · rw [if_neg c3] at h
            obtain ⟨new, e⟩ := forward_suffix fuel _ _ _ _ _ h
            exact ⟨new ++ [(s.1, v)], by rw [e]; simp⟩

theorem generateLoop_last (ht : 0 ≤ E.timeStep) (hs : ∀ x p v b a, E.nextSwitching x = some (p, v, b, a) → 0 ≤ v) (fuel : ℕ) : ∀ (rounds : ℕ) (old : List (ℝ × ℝ)) (acc : ℝ) {traj : List (ℝ × ℝ)}, old.getLast? = some (0, 0) →
    E.generateLoop fuel rounds old acc = .ok (some traj) → traj.getLast? = some (0, 0)
  | 0, _, _, _, _, h => by simp [generateLoop] at h
  | rounds + 1, old, acc, traj, hl, h => by
      rw [generateLoop] at h
      cases hf : E.integrateForward fuel old acc with
      | more => rw [hf] at h; simp at h
      | ub => rw [hf] at h; simp at h
      | ok r =>
          obtain ⟨t, valid, ret⟩ := r
          have hlt : t.getLast? = some (0, 0) := by
            match old, hf, hl with
            | [], hf, _ => simp [integrateForward] at hf
            | back :: old, hf, hl =>
                obtain ⟨new, e⟩ := forward_suffix fuel _ _ _ _ _ hf
                rw [e, List.getLast?_append, hl]; rfl
          rw [hf] at h
          match valid, ret, t, h, hlt with
          | false, _, _, h, _ => simp at h
          | true, true, t, h, hlt =>
              simp only [Out.ok.injEq, Option.some.injEq] at h
              rw [← h]; exact hlt
          | true, false, [], _, hlt => simp at hlt
          | true, false, b :: t, h, hlt =>
              simp only at h
              cases hn : E.nextSwitching b.1 with
              | none =>
                  rw [hn] at h
                  simp only [Out.ok.injEq, Option.some.injEq] at h
                  rw [← h]; exact hlt
              | some q =>
                  obtain ⟨pos, vel, before, after⟩ := q
                  rw [hn] at h
                  simp only at h
                  cases hb : E.backward fuel (b :: t) [] pos vel before with
                  | more => rw [hb] at h; simp at h
                  | ub => rw [hb] at h; simp at h
                  | ok r =>
                      rw [hb] at h
                      cases r with
                      | none => simp at h
                      | some t' =>
                          simp only at h
                          refine generateLoop_last ht hs fuel rounds t' after ?_ h
                          obtain ⟨new, m, s1, rest, bef, e1, e2, -⟩ := C130_backward ht (hs _ _ _ _ _ hn) hb
                          rw [e2, List.getLast?_append, List.getLast?_cons] at hlt
                          rw [e1, List.getLast?_append, List.getLast?_cons_cons, List.getLast?_cons]
                          simpa using hlt

/-- **C130** (ends): if the constructor ends with a valid trajectory, it starts at rest at the beginning of the path and ends at rest
at its end, and has at least three steps. -/
theorem C130_ends (ht : 0 ≤ E.timeStep) (hs : ∀ x p v b a, E.nextSwitching x = some (p, v, b, a) → 0 ≤ v) {fuel rounds : ℕ} {l : List (ℝ × ℝ)} (h : E.generate fuel rounds = .ok (some l)) :
    l.head? = some (0, 0) ∧ l.getLast? = some (E.length, 0) ∧ 3 ≤ l.length := by
  unfold generate at h
  cases hg : E.generateLoop fuel rounds [(0, 0)] (E.minMax 0 0 true) with
  | more => rw [hg] at h; simp at h
  | ub => rw [hg] at h; simp at h
  | ok r =>
      rw [hg] at h
      cases r with
      | none => simp at h
      | some t =>
          simp only at h
          have hlt := generateLoop_last ht hs fuel rounds _ _ (by simp) hg
          cases hb : E.backward fuel t [] E.length 0 (E.minMax E.length 0 false) with
          | more => rw [hb] at h; simp at h
          | ub => rw [hb] at h; simp at h
          | ok r =>
              rw [hb] at h
              cases r with
              | none => simp at h
              | some t' =>
                  simp only [Out.ok.injEq, Option.some.injEq] at h
                  subst h
                  obtain ⟨new, m, s1, rest, bef, e1, e2, -, e4, -⟩ := C130_backward ht le_rfl hb
                  cases hnew : new with
                  | nil => rw [hnew] at e4; simp at e4
                  | cons a new' =>
                      rw [hnew] at e4 e1
                      simp only [List.head?_cons, Option.some.injEq] at e4
                      rw [e2, List.getLast?_append, List.getLast?_cons] at hlt
                      refine ⟨?_, ?_, ?_⟩
                      · rw [List.head?_reverse, e1, List.getLast?_append, List.getLast?_cons_cons, List.getLast?_cons]
                        simpa using hlt
                      · rw [List.getLast?_reverse, e1, List.cons_append, List.head?_cons, e4]
                      · rw [List.length_reverse, e1]; simp; omega

/-- The limits of `E` are those of a path with maximal speeds and accelerations of the joints. -/
def Of {n : ℕ} (E : Gen) (p : Path n) (vmax amax : Fin n → ℝ) : Prop :=
  E.length = p.length ∧ E.switchingPoints = p.switchingPoints ∧
    ∀ x t k, p.getTangent x = some t → p.getCurvature x = some k →
      E.velMax x = velocityMaxPathVelocity vmax t ∧ E.accMax x = accelerationMaxPathVelocity amax t k ∧
        ∀ v b, E.minMax x v b = minMaxPathAcceleration amax t k v b

/-- **C130** (joints): at a step the integration forward appends, no joint is faster than its maximal speed, and there is an
acceleration along the path that keeps every joint below its maximal acceleration. -/
theorem C130_joints {n : ℕ} {p : Path n} {vmax amax : Fin n → ℝ} (hE : E.Of p vmax amax) (hv : ∀ i, 0 ≤ vmax i) (ha : ∀ i, 0 ≤ amax i)
    {s : ℝ × ℝ} (hs : E.Fine s) {t k : Cfg n} (h1 : p.getTangent s.1 = some t) (h2 : p.getCurvature s.1 = some k) :
    (∀ i, |t i * s.2| ≤ vmax i) ∧ ∃ a : ℝ, ∀ i, |t i * a + k i * s.2 ^ 2| ≤ amax i := by
  obtain ⟨e1, e2, -⟩ := hE.2.2 s.1 t k h1 h2
  obtain ⟨hover, h0, -⟩ := hs
  unfold over at hover
  push Not at hover
  rw [e1, e2] at hover
  refine ⟨?_, ?_⟩
  · rw [← C129_velocity vmax t h0 _ hv]
    · exact hover.2
    · refine hover.2.trans ?_
      have := (le_foldl_min (velocityMaxPathVelocity vmax t) _ dblMax).1 (le_refl (velocityMaxPathVelocity vmax t))
      exact this.1
  · exact (C129_acceleration_velocity amax t k h0 ha).1 fun m hm => hover.1 m hm

/-- A run: up with one unit of acceleration and down again. -/
def sample : Gen where
  length := 1
  timeStep := 2
  eps := 0.000001
  switchingPoints := []
  velMax := fun _ => 3
  accMax := fun _ => none
  minMax := fun _ _ b => if b then 1 else -1
  follows := fun _ => True
  leavesAcc := fun _ _ => True
  leavesVel := fun _ _ => True
  nextSwitching := fun _ => none

/-- The constructor succeeds with three steps. -/
example : sample.generate 1 1 = .ok (some [(0, 0), (0.5, 0.5), (1, 0)]) := by
  have h1 : sample.integrateForward 1 [(0, 0)] 1 = .ok ([(2, 2), (0, 0)], true, true) := by
    simp only [integrateForward, forward, sample, advanceStep, List.dropWhile_nil]
    norm_num
  have h2 : sample.meet (0, 0) (2, 2) (1, 0) (-1) 2 = some (0.5, 0.5) := by
    simp only [meet, sample]
    norm_num
  have h3 : sample.backward 1 [(2, 2), (0, 0)] [] 1 0 (-1) = .ok (some [(1, 0), (0.5, 0.5), (0, 0)]) := by
    unfold backward
    rw [if_pos (Or.inr (by norm_num)), if_pos (by norm_num)]
    have e1 : (0 : ℝ) - sample.timeStep * (-1) = 2 := by simp [sample]
    have e2 : (1 : ℝ) - sample.timeStep * 0.5 * (2 + 0) = -1 := by simp only [sample]; norm_num
    simp only [e1, e2, h2]
    norm_num
  have e3 : sample.minMax 0 0 true = 1 := by simp [sample]
  have e4 : sample.minMax sample.length 0 false = -1 := by simp [sample]
  have e5 : sample.length = 1 := rfl
  unfold generate
  rw [e3, e4, e5, generateLoop, h1]
  simp only [h3]
  rfl

/-- The first step of a trajectory is fine if the limits are not negative. -/
example : sample.Fine (0, 0) := by
  refine ⟨?_, le_rfl, ?_⟩
  · simp [over, sample]
  · simp [sample]

end Gen

end Simox.Tot
