/-
The closest points of two segments, and the direction computed with them.
-/
import Verif.Pqp.Traverse
import Verif.Pqp.Sep2

namespace Simox.Pqp

theorem clampQ_range (num den : ℝ) : 0 ≤ clampQ num den ∧ clampQ num den ≤ 1 := by
  unfold clampQ
  split_ifs <;> constructor <;> linarith

theorem clampQ_opt {num den : ℝ} (hd : 0 ≤ den) {s : ℝ} (s0 : 0 ≤ s) (s1 : s ≤ 1) :
    (s - clampQ num den) * (num - clampQ num den * den) ≤ 0 := by
  unfold clampQ
  by_cases h0 : den = 0
  · rw [if_pos h0]
    subst h0
    split_ifs <;> nlinarith
  · rw [if_neg h0]
    have hp : 0 < den := lt_of_le_of_ne hd (Ne.symm h0)
    have e : num = num / den * den := (div_mul_cancel₀ _ h0).symm
    generalize num / den = v at *
    subst e
    split_ifs with h1 h2
    · have := mul_nonneg (mul_nonneg s0 (by linarith : 0 ≤ -v)) hd
      nlinarith
    · have := mul_nonneg (mul_nonneg (by linarith : 0 ≤ 1 - s) (by linarith : 0 ≤ v - 1)) hd
      nlinarith
    · simp

theorem clampQ_low {num den : ℝ} (hd : 0 ≤ den) (h : clampQ num den ≤ 0) : num ≤ 0 := by
  unfold clampQ at h
  by_cases h0 : den = 0
  · rw [if_pos h0] at h
    by_contra hn
    rw [if_pos (not_le.mp hn)] at h
    linarith
  · rw [if_neg h0] at h
    have hp : 0 < den := lt_of_le_of_ne hd (Ne.symm h0)
    have e : num = num / den * den := (div_mul_cancel₀ _ h0).symm
    generalize num / den = v at *
    subst e
    split_ifs at h <;> nlinarith

theorem clampQ_high {num den : ℝ} (hd : 0 ≤ den) (h : 1 ≤ clampQ num den) : den ≤ num := by
  unfold clampQ at h
  by_cases h0 : den = 0
  · rw [if_pos h0] at h
    by_contra hn
    rw [if_neg (by linarith)] at h
    linarith
  · rw [if_neg h0] at h
    have hp : 0 < den := lt_of_le_of_ne hd (Ne.symm h0)
    have e : num = num / den * den := (div_mul_cancel₀ _ h0).symm
    generalize num / den = v at *
    subst e
    split_ifs at h <;> nlinarith

theorem clampQ_mid {num den : ℝ} (h0 : ¬clampQ num den ≤ 0) (h1 : ¬clampQ num den ≥ 1) :
    den ≠ 0 ∧ num = clampQ num den * den := by
  unfold clampQ at h0 h1 ⊢
  by_cases hd : den = 0
  · exfalso
    rw [if_pos hd] at h0 h1
    split_ifs at h0 h1 <;> linarith
  · rw [if_neg hd] at h0 h1 ⊢
    refine ⟨hd, ?_⟩
    have e : num = num / den * den := (div_mul_cancel₀ _ hd).symm
    split_ifs at h0 h1 ⊢
    · exact absurd (le_refl _) h0
    · exact absurd (le_refl _) h1
    · exact e

/-- The vector between points of two segments. -/
def segV (P A Q B : V3) (t u : ℝ) : V3 := vsub (vaddScaled Q B u) (vaddScaled P A t)

/-- First-order conditions for closest points of two segments. -/
structure SegMin (P A Q B : V3) (t u : ℝ) : Prop where
  t0 : 0 ≤ t
  t1 : t ≤ 1
  u0 : 0 ≤ u
  u1 : u ≤ 1
  optT : ∀ s, 0 ≤ s → s ≤ 1 → (s - t) * dot A (segV P A Q B t u) ≤ 0
  optU : ∀ s, 0 ≤ s → s ≤ 1 → 0 ≤ (s - u) * dot B (segV P A Q B t u)

theorem dot_segV_A (P A Q B : V3) (t u : ℝ) :
    dot A (segV P A Q B t u) = dot A (vsub Q P) + u * dot A B - t * dot A A := by
  simp only [dot, segV, vsub, vaddScaled]; ring

theorem dot_segV_B (P A Q B : V3) (t u : ℝ) :
    dot B (segV P A Q B t u) = dot B (vsub Q P) + u * dot B B - t * dot A B := by
  simp only [dot, segV, vsub, vaddScaled]; ring

theorem vaddScaled_zero (P A : V3) : vaddScaled P A 0 = P := by
  ext <;> simp [vaddScaled]

theorem vaddScaled_one (P A : V3) : vaddScaled P A 1 = vadd P A := by
  ext <;> simp [vaddScaled, vadd]

/-- The computed direction points from the first to the second point. -/
def Along (vec V : V3) : Prop := V = zero3 ∨ ∃ c, 0 < c ∧ vec = vscale V c

theorem Along.self (V : V3) : Along V V := .inr ⟨1, one_pos, by ext <;> simp [vscale]⟩

theorem segPoints_spec (P A Q B : V3) :
    ∃ t u, SegMin P A Q B t u ∧ (segPoints P A Q B).x = vaddScaled P A t ∧
      (segPoints P A Q B).y = vaddScaled Q B u ∧ Along (segPoints P A Q B).vec (segV P A Q B t u) := by
  have hAA := dot_self_nonneg A
  have hBB := dot_self_nonneg B
  have hcs : dot A B * dot A B ≤ dot A A * dot B B := dot_sq_le A B
  have hden : 0 ≤ dot A A * dot B B - dot A B * dot A B := by linarith
  obtain ⟨t, ht⟩ : ∃ t, t = clampQ (dot A (vsub Q P) * dot B B - dot B (vsub Q P) * dot A B)
    (dot A A * dot B B - dot A B * dot A B) := ⟨_, rfl⟩
  obtain ⟨t0, t1⟩ := clampQ_range (dot A (vsub Q P) * dot B B - dot B (vsub Q P) * dot A B)
    (dot A A * dot B B - dot A B * dot A B)
  have topt := fun s s0 s1 => clampQ_opt (num := dot A (vsub Q P) * dot B B - dot B (vsub Q P) * dot A B)
    hden (s := s) s0 s1
  have tmid := clampQ_mid (num := dot A (vsub Q P) * dot B B - dot B (vsub Q P) * dot A B)
    (den := dot A A * dot B B - dot A B * dot A B)
  rw [← ht] at t0 t1 topt tmid
  unfold segPoints
  simp only [← ht]
  clear ht
  generalize hT : vsub Q P = T at *
  have hcross : ∀ X Y : V3, cross X (cross Y X) = vsub (vscale Y (dot X X)) (vscale X (dot X Y)) := by
    intro X Y; ext <;> simp only [cross, vsub, vscale, dot] <;> ring
  -- the second parameter at an end of its range
  have ends : ∀ u' t', (u' = 0 ∧ t * dot A B - dot B T ≤ 0 ∨ u' = 1 ∧ dot B B ≤ t * dot A B - dot B T) →
      t' = clampQ (u' * dot A B + dot A T) (dot A A) → SegMin P A Q B t' u' := by
    intro u' t' hu ht'
    obtain ⟨c0, c1⟩ := clampQ_range (u' * dot A B + dot A T) (dot A A)
    have copt := fun s s0 s1 => clampQ_opt (num := u' * dot A B + dot A T) hAA (s := s) s0 s1
    rw [← ht'] at c0 c1 copt
    refine ⟨c0, c1, by rcases hu with ⟨h, _⟩ | ⟨h, _⟩ <;> simp [h],
      by rcases hu with ⟨h, _⟩ | ⟨h, _⟩ <;> simp [h], ?_, ?_⟩
    · intro s s0 s1
      have := copt s s0 s1
      rw [dot_segV_A, hT]
      linarith
    · intro s s0 s1
      rw [dot_segV_B, hT]
      have k1 := topt t' c0 c1
      have k2 := mul_le_mul_of_nonneg_right (copt t t0 t1) hBB
      have hx : dot A A * dot B B * ((t' - t) * (t' - t))
          ≤ dot A B * (t' - t) * (u' * dot B B - (t * dot A B - dot B T)) := by nlinarith
      have hy := mul_le_mul_of_nonneg_right hcs (mul_self_nonneg (t' - t))
      have hz : dot A B * (t' - t) * (dot A B * (t' - t))
          ≤ dot A B * (t' - t) * (u' * dot B B - (t * dot A B - dot B T)) := by linarith
      rcases hu with ⟨rfl, hu⟩ | ⟨rfl, hu⟩
      · have : 0 ≤ dot B T - t' * dot A B := by
          by_contra hn
          push Not at hn
          have hp : 0 < dot A B * (t' - t) := by nlinarith
          have := le_of_mul_le_mul_left hz hp
          linarith
        have := mul_nonneg s0 this
        linarith
      · have : dot B T + dot B B - t' * dot A B ≤ 0 := by
          by_contra hn
          push Not at hn
          have hp : dot A B * (t' - t) < 0 := by nlinarith
          have := (mul_le_mul_left_of_neg hp).mp hz
          linarith
        nlinarith
  have ulow := clampQ_low (num := t * dot A B - dot B T) hBB
  have uhigh := clampQ_high (num := t * dot A B - dot B T) hBB
  have umid := clampQ_mid (num := t * dot A B - dot B T) (den := dot B B)
  obtain ⟨u0, u1⟩ := clampQ_range (t * dot A B - dot B T) (dot B B)
  generalize clampQ (t * dot A B - dot B T) (dot B B) = u at *
  by_cases hu : u ≤ 0
  · simp only [if_pos hu]
    have hk := ends 0 _ (.inl ⟨rfl, ulow hu⟩) rfl
    simp only [zero_mul, zero_add] at hk
    have q0 : vaddScaled Q B 0 = Q := vaddScaled_zero Q B
    have mid := clampQ_mid (num := dot A T) (den := dot A A)
    generalize clampQ (dot A T) (dot A A) = t' at *
    refine ⟨t', 0, hk, ?_⟩
    by_cases h0 : t' ≤ 0
    · have : t' = 0 := le_antisymm h0 hk.t0
      subst this
      rw [if_pos h0]
      refine ⟨(vaddScaled_zero P A).symm, q0.symm, ?_⟩
      have : segV P A Q B 0 0 = T := by
        rw [← hT]; ext <;> simp [segV, vsub, vaddScaled]
      rw [this]
      exact Along.self _
    · by_cases h1 : t' ≥ 1
      · have : t' = 1 := le_antisymm hk.t1 h1
        subst this
        rw [if_neg h0, if_pos h1]
        refine ⟨(vaddScaled_one P A).symm, q0.symm, ?_⟩
        have : segV P A Q B 1 0 = vsub Q (vadd P A) := by
          simp only [segV, q0, vaddScaled_one]
        rw [this]
        exact Along.self _
      · obtain ⟨m1, m2⟩ := mid h0 h1
        rw [if_neg h0, if_neg h1]
        refine ⟨rfl, q0.symm, .inr ⟨dot A A, lt_of_le_of_ne hAA (Ne.symm m1), ?_⟩⟩
        have : segV P A Q B t' 0 = vsub T (vscale A t') := by
          rw [← hT]; ext <;> simp only [segV, vsub, vaddScaled, vscale] <;> ring
        rw [this, hcross, m2]
        ext <;> simp only [vsub, vscale] <;> ring
  · by_cases hu1 : u ≥ 1
    · simp only [if_neg hu, if_pos hu1]
      have hk := ends 1 _ (.inr ⟨rfl, uhigh hu1⟩) rfl
      simp only [one_mul] at hk
      have q1 : vaddScaled Q B 1 = vadd Q B := vaddScaled_one Q B
      have mid := clampQ_mid (num := dot A B + dot A T) (den := dot A A)
      generalize clampQ (dot A B + dot A T) (dot A A) = t' at *
      refine ⟨t', 1, hk, ?_⟩
      by_cases h0 : t' ≤ 0
      · have : t' = 0 := le_antisymm h0 hk.t0
        subst this
        rw [if_pos h0]
        refine ⟨(vaddScaled_zero P A).symm, q1.symm, ?_⟩
        have : segV P A Q B 0 1 = vsub (vadd Q B) P := by
          simp only [segV, q1, vaddScaled_zero]
        rw [this]
        exact Along.self _
      · by_cases h1 : t' ≥ 1
        · have : t' = 1 := le_antisymm hk.t1 h1
          subst this
          rw [if_neg h0, if_pos h1]
          refine ⟨(vaddScaled_one P A).symm, q1.symm, ?_⟩
          have : segV P A Q B 1 1 = vsub (vadd Q B) (vadd P A) := by
            simp only [segV, q1, vaddScaled_one]
          rw [this]
          exact Along.self _
        · obtain ⟨m1, m2⟩ := mid h0 h1
          rw [if_neg h0, if_neg h1]
          refine ⟨rfl, q1.symm, .inr ⟨dot A A, lt_of_le_of_ne hAA (Ne.symm m1), ?_⟩⟩
          have : segV P A Q B t' 1 = vsub (vsub (vadd Q B) P) (vscale A t') := by
            ext <;> simp only [segV, vsub, vaddScaled, vscale, vadd] <;> ring
          have e : dot A (vsub (vadd Q B) P) = dot A B + dot A T := by
            rw [← hT]; simp only [dot, vsub, vadd]; ring
          rw [this, hcross, e, m2]
          ext <;> simp only [vsub, vscale] <;> ring
    · simp only [if_neg hu, if_neg hu1]
      obtain ⟨b1, b2⟩ := umid hu hu1
      have hBp : 0 < dot B B := lt_of_le_of_ne hBB (Ne.symm b1)
      have hBV : dot B (segV P A Q B t u) = 0 := by
        rw [dot_segV_B, hT]; linarith
      have hk : SegMin P A Q B t u := by
        refine ⟨t0, t1, u0, u1, ?_, ?_⟩
        · intro s s0 s1
          have h := topt s s0 s1
          rw [dot_segV_A, hT]
          have e : dot A T * dot B B - dot B T * dot A B - t * (dot A A * dot B B - dot A B * dot A B)
              = (dot A T + u * dot A B - t * dot A A) * dot B B := by
            linear_combination dot A B * b2
          rw [e] at h
          by_contra hn
          push Not at hn
          have := mul_pos hn hBp
          linarith
        · intro s _ _
          rw [hBV]; simp
      refine ⟨t, u, hk, ?_⟩
      by_cases h0 : t ≤ 0
      · have : t = 0 := le_antisymm h0 t0
        subst this
        rw [if_pos h0]
        refine ⟨(vaddScaled_zero P A).symm, rfl, .inr ⟨dot B B, hBp, ?_⟩⟩
        have : segV P A Q B 0 u = vadd T (vscale B u) := by
          rw [← hT]; ext <;> simp only [segV, vsub, vaddScaled, vscale, vadd] <;> ring
        have e : dot B T = -(u * dot B B) := by linarith
        rw [this, hcross, e]
        ext <;> simp only [vsub, vscale, vadd] <;> ring
      · by_cases h1 : t ≥ 1
        · have : t = 1 := le_antisymm t1 h1
          subst this
          rw [if_neg h0, if_pos h1]
          refine ⟨(vaddScaled_one P A).symm, rfl, .inr ⟨dot B B, hBp, ?_⟩⟩
          have : segV P A Q B 1 u = vadd (vsub Q (vadd P A)) (vscale B u) := by
            ext <;> simp only [segV, vsub, vaddScaled, vscale, vadd] <;> ring
          have e : dot B (vsub Q (vadd P A)) = -(u * dot B B) := by
            have : dot B (vsub Q (vadd P A)) = dot B T - dot A B := by
              rw [← hT]; simp only [dot, vsub, vadd]; ring
            linarith
          rw [this, hcross, e]
          ext <;> simp only [vsub, vscale, vadd] <;> ring
        · rw [if_neg h0, if_neg h1]
          refine ⟨rfl, rfl, ?_⟩
          obtain ⟨d1, d2⟩ := tmid h0 h1
          have hAV : dot A (segV P A Q B t u) = 0 := by
            have e : dot A T * dot B B - dot B T * dot A B - t * (dot A A * dot B B - dot A B * dot A B)
                = (dot A T + u * dot A B - t * dot A A) * dot B B := by
              linear_combination dot A B * b2
            rw [dot_segV_A, hT]
            have : (dot A T + u * dot A B - t * dot A A) * dot B B = 0 := by rw [← e]; linarith
            exact (mul_eq_zero.mp this).resolve_right b1
          have hTv : dot (cross A B) T = dot (cross A B) (segV P A Q B t u) := by
            rw [← hT]; simp only [dot, segV, vsub, vaddScaled, cross]; ring
          have hvv : dot (cross A B) (cross A B) = dot A A * dot B B - dot A B * dot A B := by
            simp only [dot, cross]; ring
          -- V is a multiple of the cross product
          have hpar : vscale (segV P A Q B t u) (dot (cross A B) (cross A B))
              = vscale (cross A B) (dot (cross A B) (segV P A Q B t u)) := by
            generalize segV P A Q B t u = V at *
            simp only [dot] at hAV hBV
            ext <;> simp only [vscale, dot, cross]
            · linear_combination (A.x * (B.y ^ 2 + B.z ^ 2) - B.x * (A.y * B.y + A.z * B.z)) * hAV
                + (B.x * (A.y ^ 2 + A.z ^ 2) - A.x * (A.y * B.y + A.z * B.z)) * hBV
            · linear_combination (A.y * (B.x ^ 2 + B.z ^ 2) - B.y * (A.x * B.x + A.z * B.z)) * hAV
                + (B.y * (A.x ^ 2 + A.z ^ 2) - A.y * (A.x * B.x + A.z * B.z)) * hBV
            · linear_combination (A.z * (B.x ^ 2 + B.y ^ 2) - B.z * (A.x * B.x + A.y * B.y)) * hAV
                + (B.z * (A.x ^ 2 + A.y ^ 2) - A.z * (A.x * B.x + A.y * B.y)) * hBV
          rw [hTv]
          have hvp : 0 < dot (cross A B) (cross A B) := by
            rw [hvv]; exact lt_of_le_of_ne hden (Ne.symm d1)
          generalize dot (cross A B) (cross A B) = n at *
          generalize dot (cross A B) (segV P A Q B t u) = m at *
          generalize segV P A Q B t u = V at *
          generalize cross A B = v at *
          rcases lt_trichotomy m 0 with hm | hm | hm
          · rw [if_pos hm]
            refine .inr ⟨n / (-m), div_pos hvp (by linarith), ?_⟩
            have hm' : m ≠ 0 := hm.ne
            simp only [vscale, V3.mk.injEq] at hpar ⊢
            obtain ⟨p1, p2, p3⟩ := hpar
            refine ⟨?_, ?_, ?_⟩
            · rw [mul_div_assoc', p1]; field_simp
            · rw [mul_div_assoc', p2]; field_simp
            · rw [mul_div_assoc', p3]; field_simp
          · subst hm
            left
            refine vscale_eq_zero hvp.ne' (hpar.trans ?_)
            simp [vscale, zero3]
          · rw [if_neg (by linarith)]
            refine .inr ⟨n / m, div_pos hvp hm, ?_⟩
            have hm' : m ≠ 0 := hm.ne'
            simp only [vscale] at hpar ⊢
            have p1 := congrArg V3.x hpar
            have p2 := congrArg V3.y hpar
            have p3 := congrArg V3.z hpar
            simp only at p1 p2 p3
            ext <;> simp only
            · rw [mul_div_assoc', p1]; field_simp
            · rw [mul_div_assoc', p2]; field_simp
            · rw [mul_div_assoc', p3]; field_simp

end Simox.Pqp
