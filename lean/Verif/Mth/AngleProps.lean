import Verif.Mth.Angle
import Mathlib.Tactic.Linarith
import Mathlib.Tactic.LinearCombination
import Mathlib.Tactic.FieldSimp

/-!
# C76: angles modulo a full turn
-/

namespace Simox.Mth

/-- Two numbers differ by whole multiples of `w`. -/
def CongMod (w a b : ℝ) : Prop := ∃ k : ℤ, b = a + k * w

/-- Two angles that differ by full turns. -/
def SameAngle (a b : ℝ) : Prop := CongMod (2 * Real.pi) a b

theorem CongMod.add {w a b : ℝ} (h : CongMod w a b) (c : ℝ) : CongMod w (a + c) (b + c) := by
  obtain ⟨k, rfl⟩ := h
  exact ⟨k, by ring⟩

/-- A half open interval has one number of each class at most. -/
theorem CongMod.unique {w lo a b : ℝ} (hw : 0 < w) (h : CongMod w a b) (ha : lo ≤ a) (ha' : a < lo + w)
    (hb : lo ≤ b) (hb' : b < lo + w) : a = b := by
  obtain ⟨k, rfl⟩ := h
  have h1 : (k : ℝ) * w < 1 * w := by linarith
  have h2 : (-1 : ℝ) * w < k * w := by linarith
  have h3 : (k : ℝ) < 1 := lt_of_mul_lt_mul_right h1 hw.le
  have h4 : (-1 : ℝ) < k := lt_of_mul_lt_mul_right h2 hw.le
  have h5 : k < 1 := by exact_mod_cast h3
  have h6 : -1 < k := by exact_mod_cast h4
  have : k = 0 := by omega
  simp [this]

/-- **C76 (fmod).** For `lo < hi`, `fmod` gives the number in [lo,hi) that differs from the given one by a
multiple of the width; a number in the range comes back unchanged. -/
theorem C76_fmod (v lo hi : ℝ) (h : lo < hi) :
    fmod v lo hi ∈ Set.Ico lo hi ∧ CongMod (hi - lo) v (fmod v lo hi) ∧
    (v ∈ Set.Ico lo hi → fmod v lo hi = v) := by
  have hw : 0 < hi - lo := by linarith
  have hdiv : (v - lo) / (hi - lo) * (hi - lo) = v - lo := div_mul_cancel₀ _ hw.ne'
  have key : fmod v lo hi ∈ Set.Ico lo hi ∧ CongMod (hi - lo) v (fmod v lo hi) := by
    have hd : fmod v lo hi = if stdFmod (v - lo) (hi - lo) + lo < lo then
        stdFmod (v - lo) (hi - lo) + lo + (hi - lo) else stdFmod (v - lo) (hi - lo) + lo := rfl
    rw [hd]
    by_cases hq : 0 ≤ (v - lo) / (hi - lo)
    · have hs : stdFmod (v - lo) (hi - lo) = v - lo - ⌊(v - lo) / (hi - lo)⌋ * (hi - lo) := by
        simp only [stdFmod]; rw [if_pos hq]
      generalize hg : stdFmod (v - lo) (hi - lo) = g at *
      subst hs
      have h1 := Int.floor_le ((v - lo) / (hi - lo))
      have h2 := Int.lt_floor_add_one ((v - lo) / (hi - lo))
      have h3 := mul_le_mul_of_nonneg_right h1 hw.le
      have h4 := mul_lt_mul_of_pos_right h2 hw
      rw [hdiv] at h3 h4
      rw [if_neg (by linarith)]
      refine ⟨⟨by linarith, by linarith⟩, ⟨-⌊(v - lo) / (hi - lo)⌋, by push_cast; ring⟩⟩
    · have hs : stdFmod (v - lo) (hi - lo) = v - lo - ⌈(v - lo) / (hi - lo)⌉ * (hi - lo) := by
        simp only [stdFmod]; rw [if_neg hq]
      generalize hg : stdFmod (v - lo) (hi - lo) = g at *
      subst hs
      have h1 := Int.le_ceil ((v - lo) / (hi - lo))
      have h2 := Int.ceil_lt_add_one ((v - lo) / (hi - lo))
      have h3 := mul_le_mul_of_nonneg_right h1 hw.le
      have h4 := mul_lt_mul_of_pos_right h2 hw
      rw [add_mul, hdiv] at h4
      rw [hdiv] at h3
      split
      · next hlt => exact ⟨⟨by linarith, by linarith⟩, ⟨-⌈(v - lo) / (hi - lo)⌉ + 1, by push_cast; ring⟩⟩
      · next hge =>
        rw [not_lt] at hge
        exact ⟨⟨hge, by linarith⟩, ⟨-⌈(v - lo) / (hi - lo)⌉, by push_cast; ring⟩⟩
  refine ⟨key.1, key.2, fun hv => ?_⟩
  have hm := key.1.1
  have hM := key.1.2
  exact (key.2.unique hw hv.1 (by linarith [hv.2]) hm (by linarith)).symm

/-- **C76 (normal forms of an angle).** `angleMod2PI`, `angleModPI` and `angleModX` give the same angle in
[0,2pi), [-pi,pi) and the turn around the centre. Equal angles have equal normal forms. -/
theorem C76_angle_mod (v c : ℝ) :
    (angleMod2PI v ∈ Set.Ico 0 (2 * Real.pi) ∧ SameAngle v (angleMod2PI v)) ∧
    (angleModPI v ∈ Set.Ico (-Real.pi) Real.pi ∧ SameAngle v (angleModPI v)) ∧
    (angleModX v c ∈ Set.Ico (c - Real.pi) (c + Real.pi) ∧ SameAngle v (angleModX v c)) ∧
    (∀ v', SameAngle v v' → angleMod2PI v' = angleMod2PI v ∧ angleModPI v' = angleModPI v ∧
      angleModX v' c = angleModX v c) := by
  have hpi := Real.pi_pos
  have h0 : ∀ v, angleMod2PI v ∈ Set.Ico 0 (2 * Real.pi) ∧ SameAngle v (angleMod2PI v) := by
    intro v
    obtain ⟨h1, h2, -⟩ := C76_fmod v 0 (2 * Real.pi) (by linarith)
    rw [sub_zero] at h2
    exact ⟨h1, h2⟩
  have h4 : ∀ v v', SameAngle v v' → angleMod2PI v' = angleMod2PI v := by
    intro v v' h
    obtain ⟨k, hk⟩ := h
    obtain ⟨h1, ⟨i, hi⟩⟩ := h0 v
    obtain ⟨h2, ⟨j, hj⟩⟩ := h0 v'
    have hc : CongMod (2 * Real.pi) (angleMod2PI v') (angleMod2PI v) :=
      ⟨i - j - k, by rw [hi, hj, hk]; push_cast; ring⟩
    exact hc.unique (by linarith) h2.1 (by linarith [h2.2]) h1.1 (by linarith [h1.2])
  refine ⟨h0 v, ?_, ?_, ?_⟩
  · obtain ⟨⟨h1, h2⟩, h3⟩ := h0 (v + Real.pi)
    refine ⟨⟨by simp only [angleModPI]; linarith, by simp only [angleModPI]; linarith⟩, ?_⟩
    obtain ⟨k, hk⟩ := h3
    exact ⟨k, by simp only [angleModPI]; rw [hk]; ring⟩
  · obtain ⟨⟨h1, h2⟩, h3⟩ := h0 (v + Real.pi - c)
    refine ⟨⟨by simp only [angleModX]; linarith, by simp only [angleModX]; linarith⟩, ?_⟩
    obtain ⟨k, hk⟩ := h3
    exact ⟨k, by simp only [angleModX]; rw [hk]; ring⟩
  · intro v' h
    refine ⟨h4 v v' h, ?_, ?_⟩
    · simp only [angleModPI]
      rw [h4 (v + Real.pi) (v' + Real.pi) (h.add Real.pi)]
    · simp only [angleModX]
      rw [h4 (v + Real.pi - c) (v' + Real.pi - c) ?_]
      have := h.add (Real.pi - c)
      simpa [SameAngle, add_sub_assoc] using this

/-- **C76 (difference).** `AngleDelta` leads from the first angle to the second, lies in [-pi,pi), and no
other way is shorter. -/
theorem C76_delta (a b : ℝ) :
    SameAngle b (a + angleDelta a b) ∧ angleDelta a b ∈ Set.Ico (-Real.pi) Real.pi ∧
    (∀ d, SameAngle b (a + d) → |angleDelta a b| ≤ |d|) := by
  have hpi := Real.pi_pos
  obtain ⟨-, ⟨h1, h2⟩, -, -⟩ := C76_angle_mod (b - a) 0
  have h1' : -Real.pi ≤ angleDelta a b := h1.1
  have h1'' : angleDelta a b < Real.pi := h1.2
  obtain ⟨k, hk⟩ := h2
  have hk : angleDelta a b = b - a + k * (2 * Real.pi) := hk
  refine ⟨⟨k, by rw [hk]; ring⟩, ⟨h1', h1''⟩, ?_⟩
  intro d hd
  obtain ⟨j, hj⟩ := hd
  have hd : d = angleDelta a b + ((j - k : ℤ) : ℝ) * (2 * Real.pi) := by
    rw [hk]; push_cast; linarith
  rcases lt_trichotomy (j - k) 0 with hneg | hz | hp
  · have : ((j - k : ℤ) : ℝ) ≤ -1 := by exact_mod_cast (by omega : j - k ≤ -1)
    have := mul_le_mul_of_nonneg_right this (by linarith : 0 ≤ 2 * Real.pi)
    have h5 : d ≤ -Real.pi := by linarith
    rw [abs_of_nonpos (by linarith : d ≤ 0)]
    exact abs_le.2 ⟨by linarith, by linarith⟩
  · rw [hz] at hd; simp at hd; rw [hd]
  · have : (1 : ℝ) ≤ ((j - k : ℤ) : ℝ) := by exact_mod_cast (by omega : 1 ≤ j - k)
    have := mul_le_mul_of_nonneg_right this (by linarith : 0 ≤ 2 * Real.pi)
    have h5 : Real.pi ≤ d := by linarith
    rw [abs_of_nonneg (by linarith : 0 ≤ d)]
    exact abs_le.2 ⟨by linarith, by linarith⟩

/-- **C76 (interpolation).** `AngleLerp` goes from the first angle to the second at constant speed on the
shortest way; `Lerp` and `ILerp` are inverse to each other. -/
theorem C76_lerp (a b f : ℝ) :
    angleLerp a b f = a + f * angleDelta a b ∧
    angleLerp a b 0 = a ∧ SameAngle b (angleLerp a b 1) ∧
    lerp a b 0 = a ∧ lerp a b 1 = b ∧
    (a ≠ b → iLerp a b (lerp a b f) = f ∧ lerp a b (iLerp a b f) = f) ∧
    (f ∈ Set.Icc (0 : ℝ) 1 → min a b ≤ lerp a b f ∧ lerp a b f ≤ max a b) := by
  have hpi := Real.pi_pos
  have key : ∀ f, angleLerp a b f = a + f * angleDelta a b := by
    intro f
    obtain ⟨h1, h2, -⟩ := C76_fmod b (a - Real.pi) (a + Real.pi) (by linarith)
    obtain ⟨⟨k, hk⟩, h4, -⟩ := C76_delta a b
    have h1a := h1.1
    have h1b := h1.2
    have h4a := h4.1
    have h4b := h4.2
    obtain ⟨i, hi⟩ := h2
    have hc : CongMod (2 * Real.pi) (fmod b (a - Real.pi) (a + Real.pi)) (a + angleDelta a b) :=
      ⟨k - i, by rw [hk, hi]; push_cast; ring⟩
    have := hc.unique (lo := a - Real.pi) (by linarith) (by linarith) (by linarith) (by linarith) (by linarith)
    simp only [angleLerp, lerp]
    rw [this]; ring
  refine ⟨key f, ?_, ?_, ?_, ?_, ?_, ?_⟩
  · rw [key 0]; ring
  · rw [key 1, one_mul]; exact (C76_delta a b).1
  · simp [lerp]
  · simp [lerp]
  · intro hab
    have : b - a ≠ 0 := fun h => hab (by linarith)
    constructor
    · simp only [iLerp, lerp]; field_simp; ring
    · simp only [iLerp, lerp]; field_simp; ring
  · rintro ⟨h0, h1⟩
    simp only [lerp]
    constructor
    · have h2 := mul_le_mul_of_nonneg_right (min_le_left a b) (by linarith : 0 ≤ 1 - f)
      have h3 := mul_le_mul_of_nonneg_right (min_le_right a b) h0
      linarith
    · have h2 := mul_le_mul_of_nonneg_right (le_max_left a b) (by linarith : 0 ≤ 1 - f)
      have h3 := mul_le_mul_of_nonneg_right (le_max_right a b) h0
      linarith

theorem addTurns_spec (n : ℕ) (a : ℝ) (h : -(n : ℝ) * (2 * Real.pi) ≤ a) (fuel : ℕ) (hf : n < fuel) :
    ∃ k : ℕ, addTurns fuel a = some (a + k * (2 * Real.pi)) ∧ 0 ≤ a + k * (2 * Real.pi) ∧
      (a + k * (2 * Real.pi) < 2 * Real.pi ∨ k = 0) := by
  have hpi := Real.pi_pos
  induction n generalizing a fuel with
  | zero =>
    obtain ⟨m, rfl⟩ : ∃ m, fuel = m + 1 := ⟨fuel - 1, by omega⟩
    have : 0 ≤ a := by simpa using h
    refine ⟨0, ?_, by simpa using this, Or.inr rfl⟩
    simp [addTurns, not_lt.2 this]
  | succ n ih =>
    obtain ⟨m, rfl⟩ : ∃ m, fuel = m + 1 := ⟨fuel - 1, by omega⟩
    by_cases h0 : a < 0
    · obtain ⟨k, h1, h2, h3⟩ := ih (a + 2 * Real.pi) (by push_cast at h; linarith) m (by omega)
      refine ⟨k + 1, ?_, ?_, ?_⟩
      · simp only [addTurns]; rw [if_pos h0, h1]; push_cast; congr 1; ring
      · push_cast; linarith
      · left
        rcases h3 with h3 | h3
        · push_cast; linarith
        · subst h3; push_cast; linarith
    · refine ⟨0, ?_, by simp; linarith, Or.inr rfl⟩
      simp [addTurns, h0]

theorem subTurns_spec (n : ℕ) (a : ℝ) (h : a ≤ (n : ℝ) * (2 * Real.pi) + 2 * Real.pi) (h0 : 0 ≤ a) (fuel : ℕ)
    (hf : n < fuel) :
    ∃ k : ℕ, subTurns fuel a = some (a - k * (2 * Real.pi)) ∧ 0 ≤ a - k * (2 * Real.pi) ∧
      a - k * (2 * Real.pi) ≤ 2 * Real.pi ∧ (a ≤ 2 * Real.pi → k = 0) := by
  have hpi := Real.pi_pos
  induction n generalizing a fuel with
  | zero =>
    obtain ⟨m, rfl⟩ : ∃ m, fuel = m + 1 := ⟨fuel - 1, by omega⟩
    have : a ≤ 2 * Real.pi := by simpa using h
    refine ⟨0, ?_, by simpa using h0, by simpa using this, fun _ => rfl⟩
    simp only [subTurns, gt_iff_lt]; rw [if_neg (not_lt.2 this)]; simp
  | succ n ih =>
    obtain ⟨m, rfl⟩ : ∃ m, fuel = m + 1 := ⟨fuel - 1, by omega⟩
    by_cases h1 : a > 2 * Real.pi
    · obtain ⟨k, h2, h3, h4, -⟩ := ih (a - 2 * Real.pi) (by push_cast at h; linarith) (by linarith) m (by omega)
      refine ⟨k + 1, ?_, ?_, ?_, fun hc => absurd h1 (not_lt.2 hc)⟩
      · simp only [subTurns]; rw [if_pos h1, h2]; push_cast; congr 1; ring
      · push_cast; linarith
      · push_cast; linarith
    · refine ⟨0, ?_, by simp; linarith, by simp; linarith, fun _ => rfl⟩
      simp only [subTurns]; rw [if_neg h1]; simp

/-- **C76 (loops).** The two loops of `Helpers::ShiftAngle0_2PI` end for every angle, with the same angle
in [0,2pi]; an angle in that range is not changed. `Helpers::AngleModPI` gives the same angle in
[-pi,pi] and does not change angles in that range. -/
theorem C76_shift (a : ℝ) :
    (∃ r, (∃ N, ∀ fuel ≥ N, shiftAngle fuel a = some r) ∧ r ∈ Set.Icc 0 (2 * Real.pi) ∧ SameAngle a r ∧
      (a ∈ Set.Icc 0 (2 * Real.pi) → r = a)) ∧
    (∃ r, (∃ N, ∀ fuel ≥ N, helpersAngleModPI fuel a = some r) ∧ r ∈ Set.Icc (-Real.pi) Real.pi ∧ SameAngle a r ∧
      (a ∈ Set.Icc (-Real.pi) Real.pi → r = a)) := by
  have hpi := Real.pi_pos
  have key : ∀ a : ℝ, ∃ r, (∃ N, ∀ fuel ≥ N, shiftAngle fuel a = some r) ∧ r ∈ Set.Icc 0 (2 * Real.pi) ∧
      SameAngle a r ∧ (a ∈ Set.Icc 0 (2 * Real.pi) → r = a) := by
    intro a
    obtain ⟨n, hn⟩ := exists_nat_ge (|a| / (2 * Real.pi))
    rw [div_le_iff₀ (by linarith)] at hn
    have hn1 := (abs_le.1 hn).1
    have hn2 := (abs_le.1 hn).2
    obtain ⟨k, h1, h2, h3⟩ := addTurns_spec n a (by linarith) (n + 1) (by omega)
    have hle : a + k * (2 * Real.pi) ≤ (n : ℝ) * (2 * Real.pi) + 2 * Real.pi := by
      rcases h3 with h3 | h3
      · have : 0 ≤ (n : ℝ) * (2 * Real.pi) := by positivity
        linarith
      · subst h3; simp; linarith
    obtain ⟨j, g1, g2, g3, g4⟩ := subTurns_spec n _ hle h2 (n + 1) (by omega)
    refine ⟨_, ⟨n + 1, ?_⟩, ⟨g2, g3⟩, ⟨k - j, by push_cast; ring⟩, ?_⟩
    · intro fuel hfuel
      obtain ⟨k', h1', h2', h3'⟩ := addTurns_spec n a (by linarith) fuel (by omega)
      have hkk : k' = k := by
        rcases h3 with h3 | h3 <;> rcases h3' with h3' | h3'
        · have hc : CongMod (2 * Real.pi) (a + k * (2 * Real.pi)) (a + k' * (2 * Real.pi)) :=
            ⟨(k' : ℤ) - k, by push_cast; ring⟩
          have := hc.unique (lo := 0) (by linarith) h2 (by linarith) h2' (by linarith)
          have : (k : ℝ) * (2 * Real.pi) = k' * (2 * Real.pi) := by linarith
          have := mul_right_cancel₀ (by linarith : (2 * Real.pi) ≠ 0) this
          exact_mod_cast this.symm
        · subst h3'
          simp only [Nat.cast_zero, zero_mul, add_zero] at h1' h2'
          by_contra hne
          have h1k : 1 ≤ k := by omega
          have h1k : (1 : ℝ) ≤ k := by exact_mod_cast h1k
          have := mul_le_mul_of_nonneg_right h1k (by linarith : 0 ≤ 2 * Real.pi)
          linarith
        · subst h3
          simp only [Nat.cast_zero, zero_mul, add_zero] at h1 h2
          by_contra hne
          have h1k : 1 ≤ k' := by omega
          have h1k : (1 : ℝ) ≤ k' := by exact_mod_cast h1k
          have := mul_le_mul_of_nonneg_right h1k (by linarith : 0 ≤ 2 * Real.pi)
          linarith
        · omega
      subst hkk
      obtain ⟨j', g1', g2', g3', g4'⟩ := subTurns_spec n _ hle h2 fuel (by omega)
      rw [shiftAngle, h1', Option.bind_some, g1']
      congr 1
      have : j' = j := by
        have e : ∀ m : ℕ, ∀ fuel fuel' : ℕ, ∀ x r r', m = fuel → subTurns fuel x = some r →
            subTurns fuel' x = some r' → r = r' := by
          intro m
          induction m with
          | zero => intro fuel fuel' x r r' hm h; subst hm; simp [subTurns] at h
          | succ m ih =>
            intro fuel fuel' x r r' hm h h'
            subst hm
            cases fuel' with
            | zero => simp [subTurns] at h'
            | succ f' =>
              simp only [subTurns] at h h'
              split at h
              · next hx => rw [if_pos hx] at h'; exact ih m f' _ r r' rfl h h'
              · next hx => rw [if_neg hx] at h'; rw [← Option.some_inj, ← h, ← h']
        have := e _ _ _ _ _ _ rfl g1 g1'
        have : (j : ℝ) * (2 * Real.pi) = j' * (2 * Real.pi) := by linarith
        have := mul_right_cancel₀ (by linarith : (2 * Real.pi) ≠ 0) this
        exact_mod_cast this.symm
      rw [this]
    · rintro ⟨ha, ha'⟩
      have hk : k = 0 := by
        rcases h3 with h3 | h3
        · by_contra hne
          have h1k : 1 ≤ k := by omega
          have h1k : (1 : ℝ) ≤ k := by exact_mod_cast h1k
          have := mul_le_mul_of_nonneg_right h1k (by linarith : 0 ≤ 2 * Real.pi)
          linarith
        · exact h3
      subst hk
      have := g4 (by simpa using ha')
      subst this
      simp
  refine ⟨key a, ?_⟩
  obtain ⟨r, ⟨N, hN⟩, ⟨h1, h2⟩, ⟨k, hk⟩, h4⟩ := key (a + Real.pi)
  refine ⟨r - Real.pi, ⟨N, fun fuel hf => ?_⟩, ⟨by linarith, by linarith⟩, ⟨k, by rw [hk]; ring⟩, ?_⟩
  · rw [helpersAngleModPI, hN fuel hf]; rfl
  · rintro ⟨ha, ha'⟩
    rw [h4 ⟨by linarith, by linarith⟩]; ring

/-- Not vacuous: -1 modulo 4 from 2 on is 3. -/
example : (2 : ℝ) < 6 ∧ fmod (-1) 2 6 = 3 := by
  refine ⟨by norm_num, ?_⟩
  obtain ⟨h1, h2, -⟩ := C76_fmod (-1) 2 6 (by norm_num)
  have hc : CongMod 4 (fmod (-1) 2 6) 3 := by
    obtain ⟨k, hk⟩ := h2
    exact ⟨1 - k, by rw [hk]; push_cast; ring⟩
  have ha := h1.1
  have hb := h1.2
  exact hc.unique (lo := 2) (by norm_num) ha (by linarith) (by norm_num) (by norm_num)

end Simox.Mth
