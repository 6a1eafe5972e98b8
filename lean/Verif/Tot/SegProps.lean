import Verif.Tot.Lemmas
import Mathlib.Analysis.Convex.Segment

/-!
# C127: segments of a path
-/

namespace Simox.Tot

variable {n : ℕ}

/-- **C127** (lines): a line goes at unit speed from its start to its end, on the segment between them; its tangent is the
derivative of the configuration, its curvature the one of the tangent. -/
theorem C127_line {a b : Cfg n} (h : a ≠ b) :
    let seg := Seg.line a b
    seg.length = dist a b ∧ seg.config 0 = a ∧ seg.config seg.length = b ∧
      (∀ s, 0 ≤ s → s ≤ seg.length → seg.config s ∈ segment ℝ a b ∧ ‖seg.config s - a‖ = s) ∧
      (∀ s, ‖seg.tangent s‖ = 1 ∧ HasDerivAt seg.tangent (seg.curvature s) s) ∧
      ∀ s, 0 < s → s < seg.length → HasDerivAt seg.config (seg.tangent s) s := by
  have hL : 0 < ‖b - a‖ := norm_pos_iff.2 (sub_ne_zero.2 h.symm)
  have hcl : ∀ s, 0 ≤ s → s ≤ ‖b - a‖ → max 0 (min 1 (s / ‖b - a‖)) = s / ‖b - a‖ := by
    intro s h0 h1
    rw [min_eq_right ((div_le_one hL).2 h1), max_eq_right (div_nonneg h0 hL.le)]
  have hcf : ∀ s, 0 ≤ s → s ≤ ‖b - a‖ → (Seg.line a b).config s = (1 - s / ‖b - a‖) • a + (s / ‖b - a‖) • b := by
    intro s h0 h1
    simp only [Seg.config]; rw [hcl s h0 h1]
  refine ⟨by rw [dist_comm, dist_eq_norm]; rfl, ?_, ?_, ?_, ?_, ?_⟩
  · rw [hcf 0 le_rfl hL.le]; simp
  · show (Seg.line a b).config ‖b - a‖ = b
    rw [hcf _ hL.le le_rfl, div_self hL.ne']; simp
  · intro s h0 h1
    change s ≤ ‖b - a‖ at h1
    rw [hcf s h0 h1]
    refine ⟨⟨1 - s / ‖b - a‖, s / ‖b - a‖, sub_nonneg.2 ((div_le_one hL).2 h1), div_nonneg h0 hL.le, by ring, rfl⟩, ?_⟩
    rw [show (1 - s / ‖b - a‖) • a + (s / ‖b - a‖) • b - a = (s / ‖b - a‖) • (b - a) by module, norm_smul, Real.norm_of_nonneg (div_nonneg h0 hL.le),
      div_mul_cancel₀ _ hL.ne']
  · intro s
    refine ⟨norm_normalized (sub_ne_zero.2 h.symm), ?_⟩
    exact hasDerivAt_const s _
  · intro s h0 h1
    change s < ‖b - a‖ at h1
    have h2 : HasDerivAt (fun s : ℝ => (1 - s / ‖b - a‖) • a + (s / ‖b - a‖) • b) ((-(1 / ‖b - a‖)) • a + (1 / ‖b - a‖) • b) s := by
      have e := (hasDerivAt_id s).div_const ‖b - a‖
      exact ((e.const_sub 1).smul_const a).add (e.smul_const b)
    have h3 : (Seg.line a b).tangent s = (-(1 / ‖b - a‖)) • a + (1 / ‖b - a‖) • b := by
      simp only [Seg.tangent, one_div]; module
    rw [h3]
    refine h2.congr_of_eventuallyEq ?_
    filter_upwards [Ioo_mem_nhds h0 h1] with t ht
    exact hcf t ht.1.le ht.2.le

/-- An arc is run through at unit speed; the tangent is the derivative of the configuration, the curvature the one of the
tangent. -/
theorem arc_smooth {r : ℝ} (hr : 0 < r) {L : ℝ} {c x y : Cfg n} (hx : ‖x‖ = 1) (hy : ‖y‖ = 1) (hxy : inner ℝ x y = 0) (s : ℝ) :
    ‖(Seg.arc L r c x y).tangent s‖ = 1 ∧ HasDerivAt (Seg.arc L r c x y).config ((Seg.arc L r c x y).tangent s) s ∧
      HasDerivAt (Seg.arc L r c x y).tangent ((Seg.arc L r c x y).curvature s) s := by
  have e : HasDerivAt (fun s : ℝ => s / r) (1 / r) s := (hasDerivAt_id s).div_const r
  have ec := e.cos
  have es := e.sin
  refine ⟨?_, ?_, ?_⟩
  · have h1 : ‖(Seg.arc L r c x y).tangent s‖ ^ 2 = 1 := by
      simp only [Seg.tangent]
      rw [norm_add_sq_real, norm_smul, norm_smul, hx, hy, real_inner_smul_left, real_inner_smul_right, hxy, mul_one, mul_one, Real.norm_eq_abs, Real.norm_eq_abs,
        sq_abs, sq_abs]
      have := Real.sin_sq_add_cos_sq (s / r)
      nlinarith
    nlinarith [norm_nonneg ((Seg.arc L r c x y).tangent s)]
  · have h2 := (((ec.smul_const x).add (es.smul_const y)).const_smul r).const_add c
    have h3 : (Seg.arc L r c x y).tangent s = r • ((-Real.sin (s / r) * (1 / r)) • x + (Real.cos (s / r) * (1 / r)) • y) := by
      simp only [Seg.tangent]
      rw [smul_add, smul_smul, smul_smul]
      congr 2 <;> field_simp
    rw [h3]
    exact h2
  · have h2 := ((es.neg).smul_const x).add (ec.smul_const y)
    have h3 : (Seg.arc L r c x y).curvature s = (-(Real.cos (s / r) * (1 / r))) • x + (-Real.sin (s / r) * (1 / r)) • y := by
      simp only [Seg.curvature]
      rw [smul_add, smul_smul, smul_smul]
      congr 2 <;> field_simp
    rw [h3]
    exact h2

/-- **C127** (rounded corners): the arc touches both sides of the corner at the same distance from it, in their directions;
it is run through at unit speed, its tangent and curvature are the derivatives. The distance is the largest that stays on the
sides and within `maxDeviation`. -/
theorem C127_blend {start corner stop : Cfg n} {m : ℝ} (h : Rounded start corner stop) (hm : 0 < m) :
    let seg := circular start corner stop m
    let u := normalized (corner - start)
    let w := normalized (stop - corner)
    0 < seg.length ∧ (∃ d, 0 < d ∧ d ≤ ‖corner - start‖ ∧ d ≤ ‖stop - corner‖ ∧
      seg.config 0 = corner - d • u ∧ seg.config seg.length = corner + d • w ∧
      ‖seg.config (seg.length / 2) - corner‖ ≤ m ∧
      (d = ‖corner - start‖ ∨ d = ‖stop - corner‖ ∨ ‖seg.config (seg.length / 2) - corner‖ = m)) ∧
      seg.tangent 0 = u ∧ seg.tangent seg.length = w ∧
      ∀ s, ‖seg.tangent s‖ = 1 ∧ HasDerivAt seg.config (seg.tangent s) s ∧ HasDerivAt seg.tangent (seg.curvature s) s := by
  have hc := h.corner
  have hd := h.distance_pos hm
  have hsin := hc.sin_pos; have hcos := hc.cos_pos; have hlt := hc.cos_lt
  have h1 : blendDistance start corner stop m (cornerAngle start corner stop) ≤ ‖corner - start‖ := by
    rw [norm_sub_rev]; exact (min_le_left _ _).trans (min_le_left _ _)
  have h2 : blendDistance start corner stop m (cornerAngle start corner stop) ≤ ‖stop - corner‖ :=
    (min_le_left _ _).trans (min_le_right _ _)
  have h3 : blendDistance start corner stop m (cornerAngle start corner stop) ≤ m * Real.sin (cornerAngle start corner stop / 2) / (1 - Real.cos (cornerAngle start corner stop / 2)) :=
    min_le_right _ _
  have h4 : blendDistance start corner stop m (cornerAngle start corner stop) = ‖corner - start‖ ∨
      blendDistance start corner stop m (cornerAngle start corner stop) = ‖stop - corner‖ ∨
      blendDistance start corner stop m (cornerAngle start corner stop) = m * Real.sin (cornerAngle start corner stop / 2) / (1 - Real.cos (cornerAngle start corner stop / 2)) := by
    rw [norm_sub_rev corner start]
    unfold blendDistance
    rcases min_choice (min ‖start - corner‖ ‖stop - corner‖) (m * Real.sin (cornerAngle start corner stop / 2) / (1 - Real.cos (cornerAngle start corner stop / 2))) with e | e
    · rw [e]
      rcases min_choice ‖start - corner‖ ‖stop - corner‖ with e | e
      · exact Or.inl e
      · exact Or.inr (Or.inl e)
    · exact Or.inr (Or.inr e)
  intro seg u w
  have hseg : seg = _ := circular_eq h hm
  simp only at hseg
  rw [show normalized (corner - start) = u from rfl, show normalized (stop - corner) = w from rfl] at hseg
  rw [hseg]
  have hcu : Corner u w (cornerAngle start corner stop) := hc
  change _ ∧ _
  generalize blendDistance start corner stop m (cornerAngle start corner stop) = d at *
  generalize cornerAngle start corner stop = a at *
  change 0 < a * (d * Real.cos (a / 2) / Real.sin (a / 2)) ∧ _
  change _ ∧ (∃ _, _) ∧ _
  have hr : 0 < d * Real.cos (a / 2) / Real.sin (a / 2) := by positivity
  have hmid : ‖(Seg.arc (a * (d * Real.cos (a / 2) / Real.sin (a / 2))) (d * Real.cos (a / 2) / Real.sin (a / 2))
      (corner - d • u - (d * Real.cos (a / 2) / Real.sin (a / 2)) • Corner.out u w a) (Corner.out u w a) u).config
        (a * (d * Real.cos (a / 2) / Real.sin (a / 2)) / 2) - corner‖ = d * (1 - Real.cos (a / 2)) / Real.sin (a / 2) := by
    simp only [Seg.config]
    rw [show a * (d * Real.cos (a / 2) / Real.sin (a / 2)) / 2 / (d * Real.cos (a / 2) / Real.sin (a / 2)) = a / 2 by field_simp]
    have e : corner - d • u - (d * Real.cos (a / 2) / Real.sin (a / 2)) • Corner.out u w a +
        (d * Real.cos (a / 2) / Real.sin (a / 2)) • (Real.cos (a / 2) • Corner.out u w a + Real.sin (a / 2) • u) - corner =
        (-(d * (1 - Real.cos (a / 2)) / Real.sin (a / 2))) • (Real.sin (a / 2) • u + Real.cos (a / 2) • Corner.out u w a) := by
      have e1 : (d * Real.cos (a / 2) / Real.sin (a / 2)) * Real.sin (a / 2) - d = -(d * (1 - Real.cos (a / 2)) / Real.sin (a / 2)) * Real.sin (a / 2) := by
        field_simp; ring
      have e2 : (d * Real.cos (a / 2) / Real.sin (a / 2)) * (Real.cos (a / 2) - 1) = -(d * (1 - Real.cos (a / 2)) / Real.sin (a / 2)) * Real.cos (a / 2) := by
        field_simp; ring
      calc _ = ((d * Real.cos (a / 2) / Real.sin (a / 2)) * Real.sin (a / 2) - d) • u + ((d * Real.cos (a / 2) / Real.sin (a / 2)) * (Real.cos (a / 2) - 1)) • Corner.out u w a := by module
        _ = _ := by rw [e1, e2]; module
    have e3 : ‖Real.sin (a / 2) • u + Real.cos (a / 2) • Corner.out u w a‖ = 1 := by
      have e4 : ‖Real.sin (a / 2) • u + Real.cos (a / 2) • Corner.out u w a‖ ^ 2 = 1 := by
        rw [norm_add_sq_real, norm_smul, norm_smul, hcu.hu, hcu.norm_out, real_inner_smul_left, real_inner_smul_right, real_inner_comm, hcu.inner_out, mul_one, mul_one,
          Real.norm_eq_abs, Real.norm_eq_abs, sq_abs, sq_abs]
        have := Real.sin_sq_add_cos_sq (a / 2)
        nlinarith
      nlinarith [norm_nonneg (Real.sin (a / 2) • u + Real.cos (a / 2) • Corner.out u w a)]
    rw [e, norm_smul, e3, mul_one, norm_neg, Real.norm_of_nonneg (div_nonneg (mul_nonneg hd.le (by linarith)) hsin.le)]
  refine ⟨mul_pos hcu.pos hr, ⟨d, hd, h1, h2, ?_, ?_, ?_, ?_⟩, ?_, ?_, fun s => arc_smooth hr hcu.norm_out hcu.hu hcu.inner_out s⟩
  · simp only [Seg.config, zero_div, Real.cos_zero, Real.sin_zero]; module
  · have e := hcu.stop (d := d)
    simp only [Seg.config, Seg.length]
    rw [mul_div_cancel_right₀ a hr.ne', ← e]; module
  · show ‖(Seg.arc _ _ _ _ _).config (a * (d * Real.cos (a / 2) / Real.sin (a / 2)) / 2) - corner‖ ≤ m
    rw [hmid, div_le_iff₀ hsin]
    rwa [le_div_iff₀ (by linarith)] at h3
  · rcases h4 with e | e | e
    · exact Or.inl e
    · exact Or.inr (Or.inl e)
    · right; right
      show ‖(Seg.arc _ _ _ _ _).config (a * (d * Real.cos (a / 2) / Real.sin (a / 2)) / 2) - corner‖ = m
      rw [hmid, div_eq_iff hsin.ne']
      rwa [eq_div_iff (by linarith)] at e
  · simp only [Seg.tangent, zero_div, Real.cos_zero, Real.sin_zero]; module
  · have e := hcu.turn
    simp only [Seg.tangent, Seg.length]
    rw [mul_div_cancel_right₀ a hr.ne', e]

/-- **C127** (deviation): every point of the arc is within `maxDeviation` of a side of the corner. -/
theorem C127_deviation {start corner stop : Cfg n} {m : ℝ} (h : Rounded start corner stop) (hm : 0 < m) {s : ℝ} (h0 : 0 ≤ s)
    (h1 : s ≤ (circular start corner stop m).length) :
    ∃ q, (q ∈ segment ℝ start corner ∨ q ∈ segment ℝ corner stop) ∧ ‖(circular start corner stop m).config s - q‖ ≤ m := by
  have hc := h.corner
  have hd := h.distance_pos hm
  have hsin := hc.sin_pos; have hcos := hc.cos_pos; have hlt := hc.cos_lt; have hpos := hc.pos; have hpi := hc.lt_pi
  have hd1 : blendDistance start corner stop m (cornerAngle start corner stop) ≤ ‖corner - start‖ := by
    rw [norm_sub_rev]; exact (min_le_left _ _).trans (min_le_left _ _)
  have hd2 : blendDistance start corner stop m (cornerAngle start corner stop) ≤ ‖stop - corner‖ :=
    (min_le_left _ _).trans (min_le_right _ _)
  have hd3 : blendDistance start corner stop m (cornerAngle start corner stop) ≤ m * Real.sin (cornerAngle start corner stop / 2) / (1 - Real.cos (cornerAngle start corner stop / 2)) :=
    min_le_right _ _
  have hn1 : 0 < ‖corner - start‖ := lt_of_lt_of_le (by norm_num) h.h1
  have hn2 : 0 < ‖stop - corner‖ := lt_of_lt_of_le (by norm_num) h.h2
  have hin1 : ∀ e, 0 ≤ e → e ≤ ‖corner - start‖ → corner - e • normalized (corner - start) ∈ segment ℝ start corner := by
    intro e he0 he1
    refine ⟨e / ‖corner - start‖, 1 - e / ‖corner - start‖, div_nonneg he0 hn1.le, sub_nonneg.2 ((div_le_one hn1).2 he1), by ring, ?_⟩
    rw [normalized, smul_smul, ← div_eq_mul_inv]; module
  have hin2 : ∀ e, 0 ≤ e → e ≤ ‖stop - corner‖ → corner + e • normalized (stop - corner) ∈ segment ℝ corner stop := by
    intro e he0 he1
    refine ⟨1 - e / ‖stop - corner‖, e / ‖stop - corner‖, sub_nonneg.2 ((div_le_one hn2).2 he1), div_nonneg he0 hn2.le, by ring, ?_⟩
    rw [normalized, smul_smul, ← div_eq_mul_inv]; module
  have hseg := circular_eq h hm
  simp only at hseg
  rw [hseg] at h1 ⊢
  generalize normalized (corner - start) = u at *
  generalize normalized (stop - corner) = w at *
  generalize blendDistance start corner stop m (cornerAngle start corner stop) = d at *
  generalize cornerAngle start corner stop = a at *
  have hr : 0 < d * Real.cos (a / 2) / Real.sin (a / 2) := by positivity
  have hrt : d * Real.cos (a / 2) / Real.sin (a / 2) * Real.sin (a / 2) = d * Real.cos (a / 2) := by field_simp
  have hrc : d * Real.cos (a / 2) / Real.sin (a / 2) * (1 - Real.cos (a / 2)) ≤ m := by
    have e1 : d * (1 - Real.cos (a / 2)) / Real.sin (a / 2) ≤ m := by
      rw [div_le_iff₀ hsin]; rwa [le_div_iff₀ (by linarith)] at hd3
    have e2 : d * Real.cos (a / 2) / Real.sin (a / 2) * (1 - Real.cos (a / 2)) = Real.cos (a / 2) * (d * (1 - Real.cos (a / 2)) / Real.sin (a / 2)) := by
      field_simp
    have e3 : 0 ≤ d * (1 - Real.cos (a / 2)) / Real.sin (a / 2) := div_nonneg (mul_nonneg hd.le (by linarith)) hsin.le
    rw [e2]; nlinarith
  change s ≤ a * _ at h1
  generalize d * Real.cos (a / 2) / Real.sin (a / 2) = r at *
  have hth : 0 ≤ s / r := div_nonneg h0 hr.le
  have hth2 : s / r ≤ a := (div_le_iff₀ hr).2 h1
  simp only [Seg.config]
  generalize s / r = θ at *
  have hnear : ∀ φ, 0 ≤ φ → φ ≤ a / 2 → r * Real.sin φ ≤ d ∧ 0 ≤ r * Real.sin φ ∧ 0 ≤ r * (1 - Real.cos φ) ∧ r * (1 - Real.cos φ) ≤ m := by
    intro φ p0 p1
    have s1 : Real.sin φ ≤ Real.sin (a / 2) := Real.sin_le_sin_of_le_of_le_pi_div_two (by linarith [Real.pi_pos]) (by linarith) p1
    have s2 : 0 ≤ Real.sin φ := Real.sin_nonneg_of_nonneg_of_le_pi p0 (by linarith)
    have s3 : Real.cos (a / 2) ≤ Real.cos φ := Real.cos_le_cos_of_nonneg_of_le_pi p0 (by linarith) p1
    refine ⟨by nlinarith, by positivity, mul_nonneg hr.le (by linarith [Real.cos_le_one φ]), by nlinarith⟩
  rcases le_total θ (a / 2) with ht | ht
  · obtain ⟨b1, b2, b3, b4⟩ := hnear θ hth ht
    refine ⟨corner - (d - r * Real.sin θ) • u, Or.inl (hin1 _ (by linarith) (by linarith)), ?_⟩
    rw [show corner - d • u - r • Corner.out u w a + r • (Real.cos θ • Corner.out u w a + Real.sin θ • u) - (corner - (d - r * Real.sin θ) • u) =
      (-(r * (1 - Real.cos θ))) • Corner.out u w a by module, norm_smul, hc.norm_out, mul_one, norm_neg, Real.norm_of_nonneg b3]
    exact b4
  · obtain ⟨b1, b2, b3, b4⟩ := hnear (a - θ) (by linarith) (by linarith)
    refine ⟨corner + (d - r * Real.sin (a - θ)) • w, Or.inr (hin2 _ (by linarith) (by linarith)), ?_⟩
    have e0 : ‖Real.cos a • Corner.out u w a + Real.sin a • u‖ = 1 := by
      have e4 : ‖Real.cos a • Corner.out u w a + Real.sin a • u‖ ^ 2 = 1 := by
        rw [norm_add_sq_real, norm_smul, norm_smul, hc.hu, hc.norm_out, real_inner_smul_left, real_inner_smul_right, hc.inner_out, mul_one, mul_one,
          Real.norm_eq_abs, Real.norm_eq_abs, sq_abs, sq_abs]
        have := Real.sin_sq_add_cos_sq a
        nlinarith
      nlinarith [norm_nonneg (Real.cos a • Corner.out u w a + Real.sin a • u)]
    have e1 : Real.cos θ • Corner.out u w a + Real.sin θ • u =
        Real.cos (a - θ) • (Real.cos a • Corner.out u w a + Real.sin a • u) - Real.sin (a - θ) • w := by
      have c1 : Real.cos θ = Real.cos (a - θ) * Real.cos a + Real.sin (a - θ) * Real.sin a := by
        rw [← Real.cos_sub, show a - θ - a = -θ by ring, Real.cos_neg]
      have c2 : Real.sin θ = Real.cos (a - θ) * Real.sin a - Real.sin (a - θ) * Real.cos a := by
        have := Real.sin_sub a (a - θ)
        rw [show a - (a - θ) = θ by ring] at this
        rw [this]; ring
      have ht' := hc.turn
      generalize Corner.out u w a = x at ht' ⊢
      rw [c1, c2, ← ht']
      module
    have e2 : corner - d • u - r • Corner.out u w a + r • (Real.cos a • Corner.out u w a + Real.sin a • u) = corner + d • w := by
      have e := hc.stop (d := d)
      rw [show d * Real.cos (a / 2) / Real.sin (a / 2) = r by rw [← hrt]; field_simp] at e
      rw [← e]; module
    have e3 : corner - d • u - r • Corner.out u w a = corner + d • w - r • (Real.cos a • Corner.out u w a + Real.sin a • u) := by
      rw [← e2]; module
    rw [e1, e3]
    generalize Real.cos a • Corner.out u w a + Real.sin a • u = x' at *
    rw [show corner + d • w - r • x' + r • (Real.cos (a - θ) • x' - Real.sin (a - θ) • w) - (corner + (d - r * Real.sin (a - θ)) • w) =
      (-(r * (1 - Real.cos (a - θ)))) • x' by module, norm_smul, e0, mul_one, norm_neg, Real.norm_of_nonneg b3]
    exact b4

/-- **C127** (no corner): if a side is shorter than a millionth or the direction changes by less than that, there is no arc,
but a segment of length zero at the corner. -/
theorem C127_no_corner {start corner stop : Cfg n} {m : ℝ}
    (h : ‖corner - start‖ < 0.000001 ∨ ‖stop - corner‖ < 0.000001 ∨
      ‖normalized (corner - start) - normalized (stop - corner)‖ < 0.000001) :
    (circular start corner stop m).length = 0 ∧ ∀ s, (circular start corner stop m).config s = corner := by
  have e : circular start corner stop m = .arc 0 1 corner 0 0 := by
    unfold circular
    by_cases h1 : ‖corner - start‖ < 0.000001 ∨ ‖stop - corner‖ < 0.000001
    · rw [if_pos h1]
    · rw [if_neg h1]
      simp only
      rw [if_pos (by tauto)]
  rw [e]
  exact ⟨rfl, fun s => by simp [Seg.config]⟩

theorem switchingAngle_iff {x y θ : ℝ} (h : x ≠ 0 ∨ y ≠ 0) (h0 : 0 < θ) (h1 : θ < Real.pi) :
    -Real.sin θ * x + Real.cos θ * y = 0 ↔ switchingAngle y x = θ := by
  set φ := atan2 y x with hφ
  have hz : (⟨x, y⟩ : ℂ) ≠ 0 := by
    intro e
    have e1 := congrArg Complex.re e
    have e2 := congrArg Complex.im e
    simp only [Complex.zero_re, Complex.zero_im] at e1 e2
    tauto
  have hr : 0 < ‖(⟨x, y⟩ : ℂ)‖ := norm_pos_iff.2 hz
  have hx : x = ‖(⟨x, y⟩ : ℂ)‖ * Real.cos φ := (Complex.norm_mul_cos_arg ⟨x, y⟩).symm
  have hy : y = ‖(⟨x, y⟩ : ℂ)‖ * Real.sin φ := (Complex.norm_mul_sin_arg ⟨x, y⟩).symm
  have hlo : -Real.pi < φ := Complex.neg_pi_lt_arg _
  have hhi : φ ≤ Real.pi := Complex.arg_le_pi _
  have h2 : -Real.sin θ * x + Real.cos θ * y = 0 ↔ Real.sin (φ - θ) = 0 := by
    rw [Real.sin_sub]
    generalize ‖(⟨x, y⟩ : ℂ)‖ = r at hr hx hy
    rw [hx, hy]
    constructor
    · intro e
      have : r * (Real.sin φ * Real.cos θ - Real.cos φ * Real.sin θ) = 0 := by linarith
      rcases mul_eq_zero.1 this with e | e
      · exact absurd e hr.ne'
      · exact e
    · intro e
      have : r * (Real.sin φ * Real.cos θ - Real.cos φ * Real.sin θ) = 0 := by rw [e, mul_zero]
      linarith
  rw [h2]
  have hpi := Real.pi_pos
  unfold switchingAngle
  rw [← hφ]
  by_cases h3 : φ < 0
  · rw [if_pos h3]
    constructor
    · intro e
      have e2 : Real.sin (φ - θ + Real.pi) = 0 := by rw [Real.sin_add_pi, e, neg_zero]
      have := (Real.sin_eq_zero_iff_of_lt_of_lt (by linarith) (by linarith)).1 e2
      linarith
    · intro e
      rw [show φ - θ = -Real.pi by linarith, Real.sin_neg, Real.sin_pi, neg_zero]
  · rw [if_neg h3]
    constructor
    · intro e
      have := (Real.sin_eq_zero_iff_of_lt_of_lt (by linarith) (by linarith)).1 e
      linarith
    · intro e
      rw [e, sub_self, Real.sin_zero]

/-- **C127** (switching points): on a rounded corner, the switching points after its start are exactly the points at which a
joint changes its direction: its component of the tangent is zero, but not all along. They are listed in order. -/
theorem C127_switching {start corner stop : Cfg n} {m : ℝ} (h : Rounded start corner stop) (hm : 0 < m) :
    let seg := circular start corner stop m
    seg.switchingPoints.Pairwise (· ≤ ·) ∧ (∀ s ∈ seg.switchingPoints, 0 ≤ s ∧ s < seg.length) ∧
      ∀ s, 0 < s → s < seg.length → (s ∈ seg.switchingPoints ↔ ∃ i, seg.tangent s i = 0 ∧ ∃ t, seg.tangent t i ≠ 0) := by
  have hc := h.corner
  have hd := h.distance_pos hm
  have hsin := hc.sin_pos; have hcos := hc.cos_pos; have hpos := hc.pos; have hpi := hc.lt_pi
  intro seg
  have hseg : seg = _ := circular_eq h hm
  simp only at hseg
  rw [hseg]
  generalize normalized (corner - start) = u at *
  generalize normalized (stop - corner) = w at *
  generalize blendDistance start corner stop m (cornerAngle start corner stop) = d at *
  generalize cornerAngle start corner stop = a at *
  have hr : 0 < d * Real.cos (a / 2) / Real.sin (a / 2) := by positivity
  generalize d * Real.cos (a / 2) / Real.sin (a / 2) = r at *
  generalize Corner.out u w a = x at *
  have hnn : ∀ y x, 0 ≤ switchingAngle y x := by
    intro y x
    unfold switchingAngle
    split
    · linarith [Complex.neg_pi_lt_arg ⟨x, y⟩, show atan2 y x = Complex.arg ⟨x, y⟩ from rfl]
    · linarith
  have hmem : ∀ s, s ∈ (Seg.arc (a * r) r (corner - d • u - r • x) x u).switchingPoints ↔ (∃ i, switchingAngle (u i) (x i) * r = s) ∧ s < a * r := by
    intro s
    simp only [Seg.switchingPoints, List.mem_mergeSort, List.mem_filter, List.mem_map, List.mem_finRange, true_and, decide_eq_true_eq]
  refine ⟨?_, ?_, ?_⟩
  · simp only [Seg.switchingPoints]
    have := List.pairwise_mergeSort (le := fun a b : ℝ => decide (a ≤ b)) (fun a b c h1 h2 => by simp only [decide_eq_true_eq] at *; exact h1.trans h2)
      (fun a b => by simp only [Bool.or_eq_true, decide_eq_true_eq]; exact le_total a b)
      (((List.finRange n).map fun i => switchingAngle (u i) (x i) * r).filter fun s => decide (s < a * r))
    exact this.imp fun h => by simpa using h
  · intro s hs
    obtain ⟨⟨i, hi⟩, h2⟩ := (hmem s).1 hs
    exact ⟨by rw [← hi]; exact mul_nonneg (hnn _ _) hr.le, h2⟩
  · intro s h0 h1
    change s < a * r at h1
    have hθ0 : 0 < s / r := div_pos h0 hr
    have hθ1 : s / r < Real.pi := lt_trans ((div_lt_iff₀ hr).2 h1) hpi
    have htan : ∀ t i, (Seg.arc (a * r) r (corner - d • u - r • x) x u).tangent t i = -Real.sin (t / r) * x i + Real.cos (t / r) * u i := by
      intro t i
      simp [Seg.tangent]
    rw [hmem]
    simp only [htan]
    constructor
    · rintro ⟨⟨i, hi⟩, -⟩
      have hi' : switchingAngle (u i) (x i) = s / r := by rw [eq_div_iff hr.ne', hi]
      have hne : x i ≠ 0 ∨ u i ≠ 0 := by
        by_contra hcon
        push Not at hcon
        rw [hcon.1, hcon.2] at hi'
        have : switchingAngle 0 0 = 0 := by
          have e : atan2 0 0 = 0 := Complex.arg_zero
          unfold switchingAngle
          rw [e, if_neg (lt_irrefl _)]
        rw [this] at hi'
        exact hθ0.ne hi'
      refine ⟨i, (switchingAngle_iff hne hθ0 hθ1).2 hi', ?_⟩
      rcases hne with hne | hne
      · refine ⟨r * (Real.pi / 2), ?_⟩
        rw [mul_div_cancel_left₀ _ hr.ne', Real.sin_pi_div_two, Real.cos_pi_div_two]
        simpa using hne
      · exact ⟨0, by simpa using hne⟩
    · rintro ⟨i, hi, t, ht⟩
      have hne : x i ≠ 0 ∨ u i ≠ 0 := by
        by_contra hcon
        push Not at hcon
        rw [hcon.1, hcon.2] at ht
        simp at ht
      exact ⟨⟨i, by rw [(switchingAngle_iff hne hθ0 hθ1).1 hi, div_mul_cancel₀ _ hr.ne']⟩, h1⟩

/-- There are rounded corners. -/
example : Rounded (!₂[0, 0] : Cfg 2) !₂[1, 0] !₂[1, 1] := by
  have e1 : (!₂[1, 0] : Cfg 2) - !₂[0, 0] = !₂[1, 0] := by ext i; fin_cases i <;> simp
  have e2 : (!₂[1, 1] : Cfg 2) - !₂[1, 0] = !₂[0, 1] := by ext i; fin_cases i <;> simp
  have n1 : ‖(!₂[1, 0] : Cfg 2)‖ = 1 := by simp [EuclideanSpace.norm_eq]
  have n2 : ‖(!₂[0, 1] : Cfg 2)‖ = 1 := by simp [EuclideanSpace.norm_eq]
  refine ⟨?_, ?_, ?_, ?_⟩
  · rw [e1, n1]; norm_num
  · rw [e2, n2]; norm_num
  · rw [e1, e2, normalized, normalized, n1, n2, inv_one, one_smul, one_smul, show (!₂[1, 0] : Cfg 2) - !₂[0, 1] = !₂[1, -1] by ext i; fin_cases i <;> simp]
    have : ‖(!₂[1, -1] : Cfg 2)‖ = √2 := by simp [EuclideanSpace.norm_eq]; norm_num
    rw [this]
    have : (1 : ℝ) ≤ √2 := Real.one_le_sqrt.2 (by norm_num)
    linarith
  · rw [e1, e2, normalized, normalized, n1, n2, inv_one, one_smul, one_smul]
    intro h
    have := congrFun (congrArg (fun v : Cfg 2 => v.ofLp) h) 0
    simp at this

end Simox.Tot
