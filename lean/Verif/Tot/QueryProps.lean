import Verif.Tot.Query
import Verif.Tot.LimitProps
import Verif.Tot.PathProps
import Mathlib.Analysis.Calculus.Deriv.Pow
import Mathlib.Analysis.Calculus.Deriv.Add
import Mathlib.Analysis.Calculus.Deriv.Mul

/-!
# C131: reading a time optimal trajectory
-/

namespace Simox.Tot

variable {n : ℕ}

/-- `j` is the number of the step a query at time `t` is about: the first one that is later, at the end the last one. -/
def Found (steps : List Step) (t : ℝ) (j : ℕ) : Prop :=
  ∃ last, steps.getLast? = some last ∧
    ((last.time ≤ t ∧ j + 1 = steps.length) ∨
      (t < last.time ∧ (∃ s, steps[j]? = some s ∧ t < s.time) ∧ ∀ i s, i < j → steps[i]? = some s → s.time ≤ t))

theorem advance_spec {time : ℝ} {last : Step} (hl : time < last.time) : ∀ (l : List Step) (i : ℕ), l.getLast? = some last →
    ∃ k s, advance time l i = some (i + k) ∧ l[k]? = some s ∧ time < s.time ∧ ∀ m s, m < k → l[m]? = some s → s.time ≤ time
  | [], _, h => by simp at h
  | a :: l, i, h => by
      by_cases ha : a.time ≤ time
      · have hne : l ≠ [] := by
          rintro rfl
          simp at h
          subst h
          exact absurd hl (not_lt.2 ha)
        obtain ⟨k, s, e1, e2, e3, e4⟩ := advance_spec hl l (i + 1) (by rwa [List.getLast?_cons_of_ne_nil hne] at h)
        refine ⟨k + 1, s, ?_, by simpa using e2, e3, ?_⟩
        · rw [advance, if_pos ha, e1]
          congr 1; omega
        · intro m s hm hs
          match m with
          | 0 => simp at hs; rw [← hs]; exact ha
          | m + 1 => exact e4 m s (by omega) (by simpa using hs)
      · exact ⟨0, a, by rw [advance, if_neg ha]; rfl, rfl, not_le.1 ha, fun m s hm _ => absurd hm (Nat.not_lt_zero m)⟩

/-- What holds of every cache that is reached. -/
def Good (steps : List Step) (c : Cache) : Prop :=
  c = Cache.fresh ∨ ∃ i, c.segment = some i ∧ i < steps.length ∧ ∀ m s, m < i → steps[m]? = some s → s.time ≤ c.cachedTime

theorem segment_spec {steps : List Step} {c : Cache} (hc : Good steps c) {last : Step} (hl : steps.getLast? = some last) {t : ℝ} (ht : t < dblMax) :
    ∃ c' j, getTrajectorySegment steps c t = some (c', j) ∧ Found steps t j ∧ Good steps c' := by
  have hne : steps ≠ [] := by rintro rfl; simp at hl
  by_cases h : last.time ≤ t
  · refine ⟨c, steps.length - 1, by simp only [getTrajectorySegment, hl, if_pos h], ⟨last, hl, .inl ⟨h, ?_⟩⟩, hc⟩
    have := List.length_pos_iff.2 hne
    omega
  · have hlt := not_le.1 h
    obtain ⟨i, e1, e2, e3⟩ : ∃ i, (if t < c.cachedTime then some 0 else c.segment) = some i ∧ i < steps.length ∧ ∀ m s, m < i → steps[m]? = some s → s.time ≤ t := by
      by_cases h' : t < c.cachedTime
      · exact ⟨0, by rw [if_pos h'], List.length_pos_iff.2 hne, fun m s hm _ => absurd hm (Nat.not_lt_zero m)⟩
      · rcases hc with rfl | ⟨i, e1, e2, e3⟩
        · exact absurd ht h'
        · exact ⟨i, by rw [if_neg h', e1], e2, fun m s hm hs => (e3 m s hm hs).trans (not_lt.1 h')⟩
    have hd : (steps.drop i).getLast? = some last := by
      rw [List.getLast?_drop, if_neg (by omega), hl]
    obtain ⟨k, s, a1, a2, a3, a4⟩ := advance_spec hlt (steps.drop i) i hd
    have hall : ∀ m s, m < i + k → steps[m]? = some s → s.time ≤ t := by
      intro m s hm hs
      by_cases hmi : m < i
      · exact e3 m s hmi hs
      · exact a4 (m - i) s (by omega) (by rw [List.getElem?_drop, show i + (m - i) = m by omega]; exact hs)
    rw [List.getElem?_drop] at a2
    refine ⟨⟨t, some (i + k)⟩, i + k, ?_, ⟨last, hl, .inr ⟨hlt, ⟨s, a2, a3⟩, hall⟩⟩, .inr ⟨i + k, rfl, ?_, hall⟩⟩
    · simp only [getTrajectorySegment, hl, if_neg h, e1, a1, Option.map_some]
    · exact (List.getElem?_eq_some_iff.1 a2).1

theorem reached_good {steps : List Step} {c : Cache} (hc : Reached steps c) : Good steps c := by
  induction hc with
  | fresh => exact .inl rfl
  | @query c c' t j h1 h2 h3 ih =>
      have : ∃ last, steps.getLast? = some last := by
        cases hl : steps.getLast? with
        | none => simp [getTrajectorySegment, hl] at h3
        | some l => exact ⟨l, rfl⟩
      obtain ⟨last, hl⟩ := this
      obtain ⟨c'', j', e1, -, e3⟩ := segment_spec ih hl h2
      rw [h3] at e1
      simp only [Option.some.injEq, Prod.mk.injEq] at e1
      rw [e1.1]; exact e3

/-- **C131** (cache): whatever was asked before, a query finds the step that belongs to its time. -/
theorem C131_cache {steps : List Step} (hne : steps ≠ []) {c : Cache} (hc : Reached steps c) {t : ℝ} (ht : t < dblMax) :
    ∃ c' j, getTrajectorySegment steps c t = some (c', j) ∧ Found steps t j := by
  obtain ⟨c', j, h1, h2, -⟩ := segment_spec (reached_good hc) (List.getLast?_eq_some_getLast hne) ht
  exact ⟨c', j, h1, h2⟩

/-- There is only one such step. -/
theorem Found.unique {steps : List Step} {t : ℝ} {j j' : ℕ} (h : Found steps t j) (h' : Found steps t j') : j = j' := by
  obtain ⟨l, e, h⟩ := h
  obtain ⟨l', e', h'⟩ := h'
  rw [e] at e'
  simp only [Option.some.injEq] at e'
  subst e'
  rcases h with ⟨h1, h2⟩ | ⟨h1, ⟨s, h2, h3⟩, h4⟩ <;> rcases h' with ⟨h1', h2'⟩ | ⟨h1', ⟨s', h2', h3'⟩, h4'⟩
  · omega
  · exact absurd h1' (not_lt.2 h1)
  · exact absurd h1 (not_lt.2 h1')
  · rcases lt_trichotomy j j' with hlt | rfl | hlt
    · exact absurd h3 (not_lt.2 (h4' j s hlt h2))
    · rfl
    · exact absurd h3' (not_lt.2 (h4 j' s' hlt h2'))

/-- **C131** (cache): the result of a query does not depend on what was asked before. -/
theorem C131_history (p : Path n) {steps : List Step} (hne : steps ≠ []) {c c' : Cache} (hc : Reached steps c) (hc' : Reached steps c') {t : ℝ} (ht : t < dblMax) :
    (getPosition p steps c t).map Prod.snd = (getPosition p steps c' t).map Prod.snd ∧
      (getVelocity p steps c t).map Prod.snd = (getVelocity p steps c' t).map Prod.snd := by
  obtain ⟨d, j, h1, h2⟩ := C131_cache hne hc ht
  obtain ⟨d', j', h1', h2'⟩ := C131_cache hne hc' ht
  have := h2.unique h2'
  subst this
  simp only [getPosition, getVelocity, h1, h1']
  cases around steps j with
  | none => exact ⟨rfl, rfl⟩
  | some q =>
      obtain ⟨a, b⟩ := q
      dsimp only
      refine ⟨?_, ?_⟩
      · cases p.getConfig (interpolate a b t).1 <;> rfl
      · cases p.getTangent (interpolate a b t).1 <;> rfl

/-- **C131** (negative times): a query before the first step is undefined behaviour (the iterator is moved before the
first step). -/
theorem C131_negative_false (p : Path n) {steps : List Step} {first last : Step} {rest : List Step} (e : steps = first :: rest) (hl : steps.getLast? = some last)
    {c : Cache} (hc : Reached steps c) {t : ℝ} (ht : t < first.time) (hlast : first.time ≤ last.time) (hm : first.time ≤ dblMax) :
    getPosition p steps c t = none ∧ getVelocity p steps c t = none := by
  obtain ⟨c', j, h1, last', hl', h2⟩ := C131_cache (by rw [e]; simp) hc (ht.trans_le hm)
  rw [hl] at hl'
  simp only [Option.some.injEq] at hl'
  subst hl'
  have hj : j = 0 := by
    rcases h2 with ⟨h, -⟩ | ⟨-, -, h⟩
    · linarith
    · by_contra hj
      have := h 0 first (Nat.pos_of_ne_zero hj) (by rw [e]; rfl)
      linarith
  subst hj
  constructor
  · simp only [getPosition, h1, around]
  · simp only [getVelocity, h1, around]

/-! ### The motion -/

/-- Steps along the path: positions grow, speeds are not negative and not both zero. -/
def Forward (a b : ℝ × ℝ) : Prop := a.1 < b.1 ∧ 0 ≤ a.2 ∧ 0 ≤ b.2 ∧ 0 < a.2 + b.2

/-- Timed neighbours: the way between them takes the time it takes with the mean of the two speeds. -/
def Timed (a b : Step) : Prop :=
  a.pathPos < b.pathPos ∧ 0 ≤ a.pathVel ∧ 0 ≤ b.pathVel ∧ 0 < a.pathVel + b.pathVel ∧
    b.time = a.time + (b.pathPos - a.pathPos) / ((b.pathVel + a.pathVel) / 2)

theorem Timed.lt {a b : Step} (h : Timed a b) : a.time < b.time := by
  obtain ⟨h1, h2, h3, h4, h5⟩ := h
  rw [h5]
  have : 0 < (b.pathPos - a.pathPos) / ((b.pathVel + a.pathVel) / 2) := div_pos (by linarith) (by linarith)
  linarith

theorem timing_spec {l : List (ℝ × ℝ)} (h : l.IsChain Forward) :
    (timing l).map (fun s => (s.pathPos, s.pathVel)) = l ∧ (timing l).IsChain Timed ∧ ∀ s ∈ (timing l).head?, s.time = 0 := by
  have loop : ∀ (l : List (ℝ × ℝ)) (s : Step), List.IsChain Forward ((s.pathPos, s.pathVel) :: l) →
      (timingLoop s l).map (fun s => (s.pathPos, s.pathVel)) = l ∧ List.IsChain Timed (s :: timingLoop s l) := by
    intro l
    induction l with
    | nil => intro s _; exact ⟨rfl, by simp [timingLoop]⟩
    | cons b l ih =>
        intro s hs
        rw [List.isChain_cons_cons] at hs
        obtain ⟨⟨h1, h2, h3, h4⟩, hs⟩ := hs
        obtain ⟨e1, e2⟩ := ih ⟨b.1, b.2, s.time + (b.1 - s.pathPos) / ((b.2 + s.pathVel) / 2)⟩ hs
        rw [timingLoop]
        refine ⟨by rw [List.map_cons, e1], ?_⟩
        rw [List.isChain_cons_cons]
        exact ⟨⟨h1, h2, h3, h4, rfl⟩, e2⟩
  match l, h with
  | [], _ => exact ⟨rfl, by simp [timing], by simp [timing]⟩
  | a :: l, h =>
      obtain ⟨e1, e2⟩ := loop l ⟨a.1, a.2, 0⟩ h
      rw [timing]
      refine ⟨by rw [List.map_cons, e1], e2, ?_⟩
      simp

/-- Between two timed steps the position moves with constant acceleration, from the first to the second. -/
theorem interpolate_spec {a b : Step} (h : Timed a b) :
    (∀ t, HasDerivAt (fun t => (interpolate a b t).1) (interpolate a b t).2 t) ∧
      (∀ t, (interpolate a b t).2 = a.pathVel + (t - a.time) * ((b.pathVel - a.pathVel) / (b.time - a.time))) ∧
      interpolate a b a.time = (a.pathPos, a.pathVel) ∧ interpolate a b b.time = (b.pathPos, b.pathVel) := by
  have hlt := h.lt
  obtain ⟨h1, h2, h3, h4, h5⟩ := h
  have hd : b.time - a.time = 2 * (b.pathPos - a.pathPos) / (b.pathVel + a.pathVel) := by
    rw [h5, add_sub_cancel_left]; field_simp
  have hpos : 0 < b.time - a.time := by linarith
  have hway : b.pathPos - a.pathPos = (b.time - a.time) * (b.pathVel + a.pathVel) / 2 := by
    rw [hd]; have : b.pathVel + a.pathVel ≠ 0 := by linarith
    field_simp
  have hacc : 2 * (b.pathPos - a.pathPos - (b.time - a.time) * a.pathVel) / ((b.time - a.time) * (b.time - a.time)) = (b.pathVel - a.pathVel) / (b.time - a.time) := by
    rw [hway]; field_simp; ring
  have hv : ∀ t, interpolate a b t = (a.pathPos + (t - a.time) * a.pathVel + 0.5 * (t - a.time) * (t - a.time) * ((b.pathVel - a.pathVel) / (b.time - a.time)),
      a.pathVel + (t - a.time) * ((b.pathVel - a.pathVel) / (b.time - a.time))) := by
    intro t; unfold interpolate; simp only [hacc]
  refine ⟨?_, fun t => by rw [hv], ?_, ?_⟩
  · intro t
    simp only [hv]
    generalize (b.pathVel - a.pathVel) / (b.time - a.time) = k
    have ht : HasDerivAt (fun t : ℝ => t - a.time) 1 t := (hasDerivAt_id t).sub_const _
    have := ((ht.mul_const a.pathVel).const_add a.pathPos).add (((ht.const_mul 0.5).mul ht).mul_const k)
    refine HasDerivAt.congr_deriv this ?_
    ring
  · rw [hv]; simp
  · rw [hv]
    refine Prod.ext ?_ ?_
    · show a.pathPos + (b.time - a.time) * a.pathVel + 0.5 * (b.time - a.time) * (b.time - a.time) * ((b.pathVel - a.pathVel) / (b.time - a.time)) = b.pathPos
      have : b.pathPos = a.pathPos + (b.time - a.time) * (b.pathVel + a.pathVel) / 2 := by linarith
      rw [this]; field_simp; ring
    · show a.pathVel + (b.time - a.time) * ((b.pathVel - a.pathVel) / (b.time - a.time)) = b.pathVel
      rw [mul_div_cancel₀ _ hpos.ne']; ring

/-- Times grow along the steps. -/
theorem times_lt {steps : List Step} (h : steps.IsChain Timed) {i j : ℕ} {a b : Step} (hij : i < j) (ha : steps[i]? = some a) (hb : steps[j]? = some b) :
    a.time < b.time := by
  have h' : steps.IsChain fun a b => a.time < b.time := h.imp fun _ _ h => h.lt
  have : IsTrans Step fun a b => a.time < b.time := ⟨fun _ _ _ h1 h2 => lt_trans h1 h2⟩
  have := (List.isChain_iff_pairwise.1 h')
  obtain ⟨hi, rfl⟩ := List.getElem?_eq_some_iff.1 ha
  obtain ⟨hj, rfl⟩ := List.getElem?_eq_some_iff.1 hb
  exact List.pairwise_iff_getElem.1 this i j hi hj hij

/-- The position and the speed on the path at a time. -/
noncomputable def phase (steps : List Step) (t : ℝ) : ℝ × ℝ :=
  open Classical in
  if h : ∃ j a b, Found steps t (j + 1) ∧ steps[j]? = some a ∧ steps[j + 1]? = some b then
    interpolate h.choose_spec.choose h.choose_spec.choose_spec.choose t else 0

theorem phase_found {steps : List Step} {t : ℝ} {j : ℕ} {a b : Step} (h : Found steps t (j + 1)) (ha : steps[j]? = some a) (hb : steps[j + 1]? = some b) :
    phase steps t = interpolate a b t := by
  have hex : ∃ j a b, Found steps t (j + 1) ∧ steps[j]? = some a ∧ steps[j + 1]? = some b := ⟨j, a, b, h, ha, hb⟩
  unfold phase
  rw [dif_pos hex]
  obtain ⟨h1, h2, h3⟩ := hex.choose_spec.choose_spec.choose_spec
  have e := h1.unique h
  have e' : hex.choose = j := by omega
  have ha' : hex.choose_spec.choose = a := (Option.some.inj (ha.symm.trans ((congrArg (fun k => steps[k]?) e').symm.trans h2))).symm
  have hb' : hex.choose_spec.choose_spec.choose = b := (Option.some.inj (hb.symm.trans ((congrArg (fun k => steps[k + 1]?) e').symm.trans h3))).symm
  exact congrArg₂ (fun x y => interpolate x y t) ha' hb'

/-- Between two steps, the ends included, the phase is the interpolation of the two. -/
theorem phase_between {steps : List Step} (h : steps.IsChain Timed) {j : ℕ} {a b : Step} (ha : steps[j]? = some a) (hb : steps[j + 1]? = some b) {t : ℝ}
    (h1 : a.time ≤ t) (h2 : t ≤ b.time) : phase steps t = interpolate a b t := by
  have hne : steps ≠ [] := by rintro rfl; simp at ha
  have hl := List.getLast?_eq_some_getLast hne
  set last := steps.getLast hne
  have hlast : steps[steps.length - 1]? = some last := by rw [← hl, List.getLast?_eq_getElem?]
  have hbefore : ∀ i s, i < j + 1 → steps[i]? = some s → s.time ≤ t := by
    intro i s hi hs
    rcases Nat.lt_succ_iff_lt_or_eq.1 hi with hi | rfl
    · exact (times_lt h hi hs ha).le.trans h1
    · rw [ha] at hs; rw [← Option.some.inj hs]; exact h1
  have hjl := (List.getElem?_eq_some_iff.1 hb).1
  rcases h2.lt_or_eq with h2 | h2
  · refine phase_found ⟨last, hl, .inr ⟨?_, ⟨b, hb, h2⟩, hbefore⟩⟩ ha hb
    rcases Nat.lt_or_ge (j + 1) (steps.length - 1) with hlt | hge
    · exact h2.trans (times_lt h hlt hb hlast)
    · rw [show steps.length - 1 = j + 1 by omega, hb] at hlast
      rw [← Option.some.inj hlast]; exact h2
  · rcases Nat.lt_or_ge (j + 1) (steps.length - 1) with hlt | hge
    · obtain ⟨c, hc⟩ : ∃ c, steps[j + 1 + 1]? = some c := ⟨_, List.getElem?_eq_getElem (by omega)⟩
      have hbc : Timed b c := by
        obtain ⟨h1, rfl⟩ := List.getElem?_eq_some_iff.1 hb
        obtain ⟨h2, rfl⟩ := List.getElem?_eq_some_iff.1 hc
        exact List.isChain_iff_getElem.1 h (j + 1) h2
      have hab : Timed a b := by
        obtain ⟨h1, rfl⟩ := List.getElem?_eq_some_iff.1 ha
        obtain ⟨h2', rfl⟩ := List.getElem?_eq_some_iff.1 hb
        exact List.isChain_iff_getElem.1 h j h2'
      have hfound : Found steps t (j + 1 + 1) := by
        refine ⟨last, hl, .inr ⟨?_, ⟨c, hc, h2 ▸ hbc.lt⟩, ?_⟩⟩
        · rw [h2]; exact times_lt h hlt hb hlast
        · intro i s hi hs
          rcases Nat.lt_succ_iff_lt_or_eq.1 hi with hi | rfl
          · exact hbefore i s hi hs
          · rw [hb] at hs; rw [← Option.some.inj hs, h2]
      rw [phase_found hfound hb hc, h2, (interpolate_spec hbc).2.2.1, (interpolate_spec hab).2.2.2]
    · refine phase_found ⟨last, hl, .inl ⟨?_, by omega⟩⟩ ha hb
      rw [show steps.length - 1 = j + 1 by omega, hb] at hlast
      rw [← Option.some.inj hlast, h2]

/-- **C131** (motion): for a trajectory with two or more steps along the path, whatever was asked before, the queries during
the duration follow one motion: the position on the path is differentiable with the speed as derivative, the speed is not
negative and between two steps it changes with constant acceleration, and at the times of the steps position and speed are
those of the steps, the first at time zero and the last at the duration. -/
theorem C131_motion (path : Path n) {l : List (ℝ × ℝ)} (hl : 2 ≤ l.length) (hf : l.IsChain Forward) :
    ∃ (p v : ℝ → ℝ) (D : ℝ), getDuration (timing l) = some D ∧ 0 < D ∧
      (∀ c t, Reached (timing l) c → 0 ≤ t → t ≤ D → t < dblMax →
        (getPosition path (timing l) c t).map Prod.snd = path.getConfig (p t) ∧
          (getVelocity path (timing l) c t).map Prod.snd = (path.getTangent (p t)).map fun q => v t • q) ∧
      (∀ t ∈ Set.Icc 0 D, HasDerivWithinAt p (v t) (Set.Icc 0 D) t ∧ 0 ≤ v t) ∧
      (∀ (i : ℕ) (s : Step), (timing l)[i]? = some s → some (p s.time, v s.time) = l[i]?) ∧
      (∀ (i : ℕ) (a b : Step), (timing l)[i]? = some a → (timing l)[i + 1]? = some b → a.time < b.time ∧
        b.time - a.time = (b.pathPos - a.pathPos) / ((b.pathVel + a.pathVel) / 2) ∧
        ∀ t ∈ Set.Icc a.time b.time, v t = a.pathVel + (t - a.time) * ((b.pathVel - a.pathVel) / (b.time - a.time))) ∧
      some (p 0, v 0) = l.head? ∧ some (p D, v D) = l.getLast? := by
  obtain ⟨hmap, hch, h0⟩ := timing_spec hf
  set steps := timing l with hsteps
  have hlen : steps.length = l.length := by rw [← hmap, List.length_map]
  have hne : steps ≠ [] := by rw [← List.length_pos_iff]; omega
  have hlast := List.getLast?_eq_some_getLast hne
  set last := steps.getLast hne with hlastdef
  have hlast' : steps[steps.length - 1]? = some last := by rw [← hlast, List.getLast?_eq_getElem?]
  obtain ⟨first, hfirst⟩ : ∃ a, steps[0]? = some a := ⟨_, List.getElem?_eq_getElem (by omega)⟩
  have hfirst0 : first.time = 0 := h0 first (by rw [List.head?_eq_getElem?, hfirst]; rfl)
  have htimed : ∀ {i a b}, steps[i]? = some a → steps[i + 1]? = some b → Timed a b := by
    intro i a b ha hb
    obtain ⟨h1, rfl⟩ := List.getElem?_eq_some_iff.1 ha
    obtain ⟨h2, rfl⟩ := List.getElem?_eq_some_iff.1 hb
    exact List.isChain_iff_getElem.1 hch i h2
  have hDpos : 0 < last.time := by rw [← hfirst0]; exact times_lt hch (by omega) hfirst hlast'
  -- every step has the position and the speed of the phase
  have hstep : ∀ (i : ℕ) (s : Step), steps[i]? = some s → phase steps s.time = (s.pathPos, s.pathVel) := by
    intro i s hs
    match i with
    | 0 =>
        obtain ⟨b, hb⟩ : ∃ b, steps[1]? = some b := ⟨_, List.getElem?_eq_getElem (by omega)⟩
        rw [phase_between hch hs hb le_rfl (htimed hs hb).lt.le, (interpolate_spec (htimed hs hb)).2.2.1]
    | i + 1 =>
        obtain ⟨a, ha⟩ : ∃ a, steps[i]? = some a := ⟨_, List.getElem?_eq_getElem (by have := (List.getElem?_eq_some_iff.1 hs).1; omega)⟩
        rw [phase_between hch ha hs (htimed ha hs).lt.le le_rfl, (interpolate_spec (htimed ha hs)).2.2.2]
  have hli : ∀ (i : ℕ) (s : Step), steps[i]? = some s → l[i]? = some (s.pathPos, s.pathVel) := by
    intro i s hs
    rw [← hmap, List.getElem?_map, hs]; rfl
  -- the derivative, up to every step
  have hder : ∀ (i : ℕ) (s : Step), steps[i]? = some s → ∀ t ∈ Set.Icc 0 s.time,
      HasDerivWithinAt (fun t => (phase steps t).1) (phase steps t).2 (Set.Icc 0 s.time) t ∧ (i ≠ 0 → 0 ≤ (phase steps t).2) := by
    intro i
    induction i with
    | zero =>
        intro s hs t ht
        rw [hfirst] at hs
        rw [← Option.some.inj hs, hfirst0] at ht ⊢
        rw [Set.Icc_self] at ht ⊢
        rw [Set.mem_singleton_iff.1 ht]
        exact ⟨HasFDerivWithinAt.of_subsingleton Set.subsingleton_singleton, fun h => absurd rfl h⟩
    | succ i ih =>
        intro s hs t ht
        obtain ⟨a, ha⟩ : ∃ a, steps[i]? = some a := ⟨_, List.getElem?_eq_getElem (by have := (List.getElem?_eq_some_iff.1 hs).1; omega)⟩
        have hT := htimed ha hs
        have ha0 : 0 ≤ a.time := by
          rcases Nat.eq_zero_or_pos i with rfl | hi
          · rw [hfirst] at ha; rw [← Option.some.inj ha, hfirst0]
          · rw [← hfirst0]; exact (times_lt hch hi hfirst ha).le
        have hseg : ∀ t ∈ Set.Icc a.time s.time, HasDerivWithinAt (fun t => (phase steps t).1) (phase steps t).2 (Set.Icc a.time s.time) t ∧ 0 ≤ (phase steps t).2 := by
          intro t ht
          have he : ∀ u ∈ Set.Icc a.time s.time, phase steps u = interpolate a s u := fun u hu => phase_between hch ha hs hu.1 hu.2
          refine ⟨?_, ?_⟩
          · rw [he t ht]
            exact ((interpolate_spec hT).1 t).hasDerivWithinAt.congr (fun u hu => by rw [he u hu]) (by rw [he t ht])
          · rw [he t ht, (interpolate_spec hT).2.1]
            have hlt := hT.lt
            have e : a.pathVel + (t - a.time) * ((s.pathVel - a.pathVel) / (s.time - a.time)) = ((s.time - t) * a.pathVel + (t - a.time) * s.pathVel) / (s.time - a.time) := by
              have : s.time - a.time ≠ 0 := by linarith
              field_simp; ring
            rw [e]
            refine div_nonneg (add_nonneg (mul_nonneg (by linarith [ht.2]) hT.2.1) (mul_nonneg (by linarith [ht.1]) hT.2.2.1)) (by linarith)
        refine ⟨?_, ?_⟩
        · rw [← Set.Icc_union_Icc_eq_Icc ha0 hT.lt.le]
          refine HasDerivWithinAt.union ?_ ?_
          · by_cases hta : t ≤ a.time
            · exact (ih a ha t ⟨ht.1, hta⟩).1
            · exact HasFDerivWithinAt.of_notMem_closure (by rw [isClosed_Icc.closure_eq]; exact fun h => hta h.2)
          · by_cases hta : a.time ≤ t
            · exact (hseg t ⟨hta, ht.2⟩).1
            · exact HasFDerivWithinAt.of_notMem_closure (by rw [isClosed_Icc.closure_eq]; exact fun h => hta h.1)
        · intro _
          by_cases hta : a.time ≤ t
          · exact (hseg t ⟨hta, ht.2⟩).2
          · rcases Nat.eq_zero_or_pos i with rfl | hi
            · rw [hfirst] at ha
              rw [← Option.some.inj ha, hfirst0] at hta
              exact absurd ht.1 hta
            · exact (ih a ha t ⟨ht.1, (not_le.1 hta).le⟩).2 (by omega)
  refine ⟨fun t => (phase steps t).1, fun t => (phase steps t).2, last.time, by rw [getDuration, hlast]; rfl, hDpos, ?_, ?_, ?_, ?_, ?_, ?_⟩
  · intro c t hc ht0 htD htm
    obtain ⟨c', j, h1, h2⟩ := C131_cache hne hc htm
    have hj : ∃ i, j = i + 1 := by
      obtain ⟨last', e, h2⟩ := h2
      rw [hlast] at e
      have e := Option.some.inj e
      subst e
      rcases h2 with ⟨-, h⟩ | ⟨h', ⟨s, hs, hs'⟩, -⟩
      · exact ⟨j - 1, by omega⟩
      · match j with
        | 0 => rw [hfirst] at hs; rw [← Option.some.inj hs, hfirst0] at hs'; exact absurd ht0 (not_le.2 hs')
        | j + 1 => exact ⟨j, rfl⟩
    obtain ⟨i, rfl⟩ := hj
    have hil : i + 1 < steps.length := by
      obtain ⟨last', e, h2⟩ := h2
      rcases h2 with ⟨-, h⟩ | ⟨h', ⟨s, hs, hs'⟩, -⟩
      · omega
      · exact (List.getElem?_eq_some_iff.1 hs).1
    obtain ⟨a, ha⟩ : ∃ a, steps[i]? = some a := ⟨_, List.getElem?_eq_getElem (by omega)⟩
    obtain ⟨b, hb⟩ : ∃ b, steps[i + 1]? = some b := ⟨_, List.getElem?_eq_getElem hil⟩
    simp only [getPosition, getVelocity, h1, around, ha, hb, phase_found h2 ha hb]
    constructor
    · cases path.getConfig (interpolate a b t).1 <;> rfl
    · cases path.getTangent (interpolate a b t).1 <;> rfl
  · intro t ht
    obtain ⟨h1, h2⟩ := hder _ last hlast' t ht
    exact ⟨h1, h2 (by omega)⟩
  · intro i s hs
    simp only
    rw [hli i s hs, hstep i s hs]
  · intro i a b ha hb
    have hT := htimed ha hb
    refine ⟨hT.lt, by rw [hT.2.2.2.2]; ring, ?_⟩
    intro t ht
    simp only
    rw [phase_between hch ha hb ht.1 ht.2, (interpolate_spec hT).2.1]
  · have := hstep 0 first hfirst
    rw [hfirst0] at this
    simp only
    rw [List.head?_eq_getElem?, hli 0 first hfirst, this]
  · simp only
    rw [List.getLast?_eq_getElem?, ← hlen, hli _ last hlast', hstep _ last hlast']

/-- Three steps: speeding up, then slowing down. -/
example : ([(0, 0), (1, 2), (2, 0)] : List (ℝ × ℝ)).IsChain Forward ∧ 2 ≤ ([(0, 0), (1, 2), (2, 0)] : List (ℝ × ℝ)).length := by
  constructor
  · simp [Forward]
  · norm_num

end Simox.Tot
