import Verif.Pqp.Sep

namespace Simox.Pqp

theorem dot_self_eq_zero {v : V3} (h : dot v v = 0) : v = zero3 := by
  simp only [dot] at h
  have hx : v.x = 0 := by nlinarith [mul_self_nonneg v.x, mul_self_nonneg v.y, mul_self_nonneg v.z]
  have hy : v.y = 0 := by nlinarith [mul_self_nonneg v.x, mul_self_nonneg v.y, mul_self_nonneg v.z]
  have hz : v.z = 0 := by nlinarith [mul_self_nonneg v.x, mul_self_nonneg v.y, mul_self_nonneg v.z]
  exact V3.ext hx hy hz

theorem cross_cross (a b c : V3) : cross a (cross b c) = vsub (vscale b (dot a c)) (vscale c (dot a b)) := by
  ext <;> simp only [cross, vsub, vscale, dot] <;> ring

theorem vscale_eq_zero {v : V3} {s : ℝ} (hs : s ≠ 0) (h : vscale v s = zero3) : v = zero3 := by
  simp only [vscale, zero3, V3.mk.injEq, mul_eq_zero, hs, or_false] at h
  exact V3.ext h.1 h.2.1 h.2.2

theorem parallel_of_orth {w e : V3} (hw : w ≠ zero3) (h : ∀ v, dot v w = 0 → dot v e = 0) :
    ∃ k, e = vscale w k := by
  have hn : dot w w ≠ 0 := fun h0 => hw (dot_self_eq_zero h0)
  set k := dot e w / dot w w with hk
  have hk' : k * dot w w = dot e w := by rw [hk]; field_simp
  refine ⟨k, ?_⟩
  have h1 : dot (vsub e (vscale w k)) w = 0 := by
    have : dot (vsub e (vscale w k)) w = dot e w - k * dot w w := by
      simp only [dot, vsub, vscale]; ring
    rw [this]; linarith
  have h2 := h _ h1
  have h3 : vsub e (vscale w k) = zero3 := by
    apply dot_self_eq_zero
    have : dot (vsub e (vscale w k)) (vsub e (vscale w k))
        = dot (vsub e (vscale w k)) e - k * dot (vsub e (vscale w k)) w := by
      simp only [dot, vsub, vscale]; ring
    rw [this, h1, h2]; ring
  simp only [vsub, zero3, V3.mk.injEq] at h3
  exact V3.ext (by linarith [h3.1]) (by linarith [h3.2.1]) (by linarith [h3.2.2])

/-- Everything in one plane: the separating direction can be taken in the plane. -/
theorem inplane {W : List V3} {d e a b w0 : V3} (hn : cross a b ≠ zero3) (he : e ≠ zero3)
    (hen : dot e (cross a b) = 0) (hde : dot d e = 0) (hd0 : dot d w0 ≠ 0)
    (hab : ∀ v, (∀ w ∈ W, dot v w = 0) → dot v a = 0 ∧ dot v b = 0)
    (hv : ∀ w ∈ W, dot (cross e w0) w = 0) :
    ∃ s, ∀ w ∈ W, dot d w = s * dot (cross e (cross a b)) w := by
  have hvne : cross e w0 ≠ zero3 := by
    intro h
    have := cross_cross d e w0
    rw [h, hde] at this
    apply he
    apply vscale_eq_zero hd0
    have hx := congrArg V3.x this
    have hy := congrArg V3.y this
    have hz := congrArg V3.z this
    simp only [cross, zero3, vsub, vscale] at hx hy hz
    ext <;> simp only [vscale, zero3] <;> linarith
  obtain ⟨h1, h2⟩ := hab _ hv
  obtain ⟨s, hs⟩ := eq_cross_of_orth h1 h2 hn
  have hs0 : s ≠ 0 := by
    intro h0
    apply hvne
    apply dot_self_eq_zero
    rw [hs, h0]; ring
  have hnw : ∀ w ∈ W, dot (cross a b) w = 0 := by
    intro w hw
    have := hv w hw
    rw [hs] at this
    exact (mul_eq_zero.mp this).resolve_left hs0
  generalize cross a b = n at *
  have hnn : dot n n ≠ 0 := fun h0 => hn (dot_self_eq_zero h0)
  have hx : cross e n ≠ zero3 := by
    intro h
    have := cross_cross n e n
    have hne : dot n e = 0 := by rw [← hen]; simp only [dot]; ring
    rw [h, hne] at this
    apply he
    apply vscale_eq_zero hnn
    have hx := congrArg V3.x this
    have hy := congrArg V3.y this
    have hz := congrArg V3.z this
    simp only [cross, zero3, vsub, vscale] at hx hy hz
    ext <;> simp only [vscale, zero3] <;> linarith
  set k := dot d n / dot n n with hk
  have hk' : k * dot n n = dot d n := by rw [hk]; field_simp
  have e1 : ∀ w, dot (vsub d (vscale n k)) w = dot d w - k * dot n w := by
    intro w; simp only [dot, vsub, vscale]; ring
  have hne : dot n e = 0 := by rw [← hen]; simp only [dot]; ring
  obtain ⟨t, ht⟩ := eq_cross_of_orth (d := vsub d (vscale n k)) (by rw [e1, hde, hne]; ring)
    (by rw [e1]; linarith) hx
  refine ⟨t, ?_⟩
  intro w hw
  rw [← ht, e1, hnw w hw]; ring

theorem scale_up (W : List V3) (d : V3) (h : ∀ w ∈ W, 0 < dot d w) :
    ∃ c, ∀ w ∈ W, 1 ≤ dot (vscale d c) w := by
  suffices ∃ c, 0 ≤ c ∧ ∀ w ∈ W, 1 ≤ c * dot d w by
    obtain ⟨c, _, hc⟩ := this
    refine ⟨c, fun w hw => ?_⟩
    have e : dot (vscale d c) w = c * dot d w := by simp only [dot, vscale]; ring
    rw [e]; exact hc w hw
  induction W with
  | nil => exact ⟨0, le_refl _, by simp⟩
  | cons w W ih =>
    obtain ⟨c, hc0, hc⟩ := ih (fun w' hw' => h w' (by simp [hw']))
    have hw := h w (by simp)
    refine ⟨c + (dot d w)⁻¹, by positivity, ?_⟩
    intro w' hw'
    rcases List.mem_cons.mp hw' with rfl | hw'
    · have := mul_nonneg hc0 hw.le
      have e : (c + (dot d w')⁻¹) * dot d w' = c * dot d w' + 1 := by
        field_simp
      rw [e]; linarith
    · have h1 := hc w' hw'
      have h2 : 0 ≤ (dot d w)⁻¹ * dot d w' := mul_nonneg (by positivity) (h w' (by simp [hw'])).le
      linarith

theorem cross_edge {p1 p2 p3 : V3} {e : V3} (hp : cross (vsub p2 p1) (vsub p3 p2) ≠ zero3)
    (he : e ∈ [vsub p2 p1, vsub p3 p2, vsub p1 p3]) :
    e ≠ zero3 ∧ dot e (cross (vsub p2 p1) (vsub p3 p2)) = 0 := by
  simp only [List.mem_cons, List.not_mem_nil, or_false] at he
  rcases he with rfl | rfl | rfl
  · refine ⟨fun h => hp ?_, by simp only [dot, cross]; ring⟩
    rw [h]; ext <;> simp [cross, zero3]
  · refine ⟨fun h => hp ?_, by simp only [dot, cross]; ring⟩
    rw [h]; ext <;> simp [cross, zero3]
  · refine ⟨fun h => hp ?_, by simp only [dot, cross, vsub]; ring⟩
    have hx := congrArg V3.x h
    have hy := congrArg V3.y h
    have hz := congrArg V3.z h
    simp only [vsub, zero3] at hx hy hz
    ext <;> simp only [cross, zero3, vsub]
    · linear_combination (p2.y - p1.y) * hz * (-1) + (p2.z - p1.z) * hy
    · linear_combination (p2.z - p1.z) * hx * (-1) + (p2.x - p1.x) * hz
    · linear_combination (p2.x - p1.x) * hy * (-1) + (p2.y - p1.y) * hx

/-- Proper triangles that pass all tests have a point in common. -/
theorem common_of_contactTests {p1 p2 p3 q1 q2 q3 : V3}
    (hp : cross (vsub p2 p1) (vsub p3 p2) ≠ zero3) (hq : cross (vsub q2 q1) (vsub q3 q2) ≠ zero3)
    (h : contactTests p1 p2 p3 q1 q2 q3 = true) : ∃ x, inTri p1 p2 p3 x ∧ inTri q1 q2 q3 x := by
  by_contra hno
  obtain ⟨d0, hd0⟩ := separated hno
  obtain ⟨W, hW⟩ : ∃ W : List V3, ∀ w, w ∈ W ↔ ∃ p ∈ [p1, p2, p3], ∃ q ∈ [q1, q2, q3], w = vsub p q := by
    refine ⟨[p1, p2, p3].flatMap (fun p => [q1, q2, q3].map (fun q => vsub p q)), ?_⟩
    intro w
    simp only [List.mem_flatMap, List.mem_map, eq_comm]
  obtain ⟨c, hc⟩ := scale_up W d0 (by
    intro w hw
    obtain ⟨p, hp, q, hq, rfl⟩ := (hW w).mp hw
    exact hd0 p hp q hq)
  obtain ⟨d, hd, ht⟩ := exists_tight W _ _ hc (le_refl _)
  have memW : ∀ p ∈ [p1, p2, p3], ∀ q ∈ [q1, q2, q3], vsub p q ∈ W :=
    fun p hp q hq => (hW _).mpr ⟨p, hp, q, hq, rfl⟩
  -- an axis proportional to `d` on `W` separates
  have axis : ∀ ax, project6 ax p1 p2 p3 q1 q2 q3 = true → (∃ s, ∀ w ∈ W, dot d w = s * dot ax w) → False := by
    rintro ax hax ⟨s, hs⟩
    rw [project6_of_sep s] at hax
    · simp at hax
    · intro p hp q hq
      rw [← hs _ (memW p hp q hq)]
      linarith [hd _ (memW p hp q hq)]
  have edges : ∀ v, (∀ w ∈ W, dot v w = 0) →
      (dot v (vsub p2 p1) = 0 ∧ dot v (vsub p3 p2) = 0) ∧ (dot v (vsub q2 q1) = 0 ∧ dot v (vsub q3 q2) = 0) := by
    intro v hv
    have k11 := hv _ (memW p1 (by simp) q1 (by simp))
    have k21 := hv _ (memW p2 (by simp) q1 (by simp))
    have k31 := hv _ (memW p3 (by simp) q1 (by simp))
    have k12 := hv _ (memW p1 (by simp) q2 (by simp))
    have k13 := hv _ (memW p1 (by simp) q3 (by simp))
    simp only [dot_vsub] at *
    refine ⟨⟨?_, ?_⟩, ⟨?_, ?_⟩⟩ <;> linarith
  unfold contactTests at h
  simp only [Bool.and_eq_true] at h
  obtain ⟨⟨⟨⟨⟨⟨⟨⟨⟨⟨⟨⟨⟨⟨⟨⟨n1, m1⟩, a11⟩, a12⟩, a13⟩, a21⟩, a22⟩, a23⟩, a31⟩, a32⟩, a33⟩, g1⟩, g2⟩, g3⟩, k1⟩, k2⟩, k3⟩ := h
  have aef : ∀ e ∈ [vsub p2 p1, vsub p3 p2, vsub p1 p3], ∀ f ∈ [vsub q2 q1, vsub q3 q2, vsub q1 q3],
      project6 (cross e f) p1 p2 p3 q1 q2 q3 = true := by
    intro e he f hf
    simp only [List.mem_cons, List.not_mem_nil, or_false] at he hf
    rcases he with rfl | rfl | rfl <;> rcases hf with rfl | rfl | rfl <;> assumption
  have ag : ∀ e ∈ [vsub p2 p1, vsub p3 p2, vsub p1 p3],
      project6 (cross e (cross (vsub p2 p1) (vsub p3 p2))) p1 p2 p3 q1 q2 q3 = true := by
    intro e he
    simp only [List.mem_cons, List.not_mem_nil, or_false] at he
    rcases he with rfl | rfl | rfl <;> assumption
  have ak : ∀ f ∈ [vsub q2 q1, vsub q3 q2, vsub q1 q3],
      project6 (cross f (cross (vsub q2 q1) (vsub q3 q2))) p1 p2 p3 q1 q2 q3 = true := by
    intro e he
    simp only [List.mem_cons, List.not_mem_nil, or_false] at he
    rcases he with rfl | rfl | rfl <;> assumption
  have neg : ∀ v, dot (vscale d (-1)) v = - dot d v := by intro v; simp only [dot, vscale]; ring
  -- tight constraints come from lowest corners of the one and highest of the other triangle
  have tight : ∀ p0 ∈ [p1, p2, p3], ∀ q0 ∈ [q1, q2, q3], (∀ p ∈ [p1, p2, p3], dot d p0 ≤ dot d p) →
      (∀ q ∈ [q1, q2, q3], dot (vscale d (-1)) q0 ≤ dot (vscale d (-1)) q) →
      ∀ w ∈ W, dot d w = 1 → ∃ p ∈ [p1, p2, p3], ∃ q ∈ [q1, q2, q3], w = vsub p q ∧ dot d p = dot d p0 ∧
        dot (vscale d (-1)) q = dot (vscale d (-1)) q0 := by
    intro p0 hp0 q0 hq0 hmin hmax w hw h1
    obtain ⟨p, hp, q, hq, rfl⟩ := (hW w).mp hw
    have b1 := hmin p hp
    have b2 := hmax q hq
    have b3 := hd _ (memW p0 hp0 q0 hq0)
    simp only [neg, dot_vsub] at *
    exact ⟨p, hp, q, hq, rfl, by linarith, by linarith⟩
  rcases argmin_cases d p1 p2 p3 with ⟨i1, i2⟩ | ⟨e, he, hde, p0, hp0, hmin, hI⟩ | ⟨p0, hp0, hmin, hI⟩
  · obtain ⟨s, hs⟩ := eq_cross_of_orth i1 i2 hp
    exact axis _ n1 ⟨s, fun w _ => hs w⟩
  all_goals
    rcases argmin_cases (vscale d (-1)) q1 q2 q3 with ⟨j1, j2⟩ | ⟨f, hf, hdf, q0, hq0, hmax, hJ⟩ | ⟨q0, hq0, hmax, hJ⟩
    · rw [neg] at j1 j2
      obtain ⟨s, hs⟩ := eq_cross_of_orth (neg_eq_zero.mp j1) (neg_eq_zero.mp j2) hq
      exact axis _ m1 ⟨s, fun w _ => hs w⟩
  · rw [neg, neg_eq_zero] at hdf
    by_cases hef : cross e f = zero3
    · refine axis _ (ag e he) (inplane hp (cross_edge hp he).1 (cross_edge hp he).2 hde
        (w0 := vsub p0 q0) (by linarith [hd _ (memW p0 hp0 q0 hq0)]) (fun v hv => (edges v hv).1) ?_)
      refine ht _ ?_
      intro w hw h1
      obtain ⟨p, hp, q, hq, rfl, ep, eq⟩ := tight p0 hp0 q0 hq0 hmin hmax w hw h1
      obtain ⟨s, rfl⟩ := hI p hp ep
      obtain ⟨t, rfl⟩ := hJ q hq eq
      have hx := congrArg V3.x hef
      have hy := congrArg V3.y hef
      have hz := congrArg V3.z hef
      simp only [cross, zero3] at hx hy hz
      simp only [dot, cross, vsub, vaddScaled]
      linear_combination t * (p0.x - q0.x) * hx + t * (p0.y - q0.y) * hy + t * (p0.z - q0.z) * hz
    · obtain ⟨s, hs⟩ := eq_cross_of_orth hde hdf hef
      exact axis _ (aef e he f hf) ⟨s, fun w _ => hs w⟩
  · refine axis _ (ag e he) (inplane hp (cross_edge hp he).1 (cross_edge hp he).2 hde
      (w0 := vsub p0 q0) (by linarith [hd _ (memW p0 hp0 q0 hq0)]) (fun v hv => (edges v hv).1) ?_)
    refine ht _ ?_
    intro w hw h1
    obtain ⟨p, hp, q, hq, rfl, ep, eq⟩ := tight p0 hp0 q0 hq0 hmin hmax w hw h1
    obtain ⟨s, rfl⟩ := hI p hp ep
    obtain rfl := hJ q hq eq
    simp only [dot, cross, vsub, vaddScaled]
    ring
  · rw [neg, neg_eq_zero] at hdf
    refine axis _ (ak f hf) (inplane hq (cross_edge hq hf).1 (cross_edge hq hf).2 hdf
      (w0 := vsub p0 q0) (by linarith [hd _ (memW p0 hp0 q0 hq0)]) (fun v hv => (edges v hv).2) ?_)
    refine ht _ ?_
    intro w hw h1
    obtain ⟨p, hp, q, hq, rfl, ep, eq⟩ := tight p0 hp0 q0 hq0 hmin hmax w hw h1
    obtain rfl := hI p hp ep
    obtain ⟨t, rfl⟩ := hJ q hq eq
    simp only [dot, cross, vsub, vaddScaled]
    ring
  · have only : ∀ v, dot v (vsub p0 q0) = 0 → ∀ w ∈ W, dot v w = 0 := by
      intro v hv
      refine ht v ?_
      intro w hw h1
      obtain ⟨p, hp, q, hq, rfl, ep, eq⟩ := tight p0 hp0 q0 hq0 hmin hmax w hw h1
      obtain rfl := hI p hp ep
      obtain rfl := hJ q hq eq
      exact hv
    have w0ne : vsub p0 q0 ≠ zero3 := by
      intro h
      have := hd _ (memW p0 hp0 q0 hq0)
      rw [h] at this
      simp only [dot, zero3] at this
      linarith
    obtain ⟨k, hk⟩ := parallel_of_orth w0ne (fun v hv => (edges v (only v hv)).1.1)
    obtain ⟨k', hk'⟩ := parallel_of_orth w0ne (fun v hv => (edges v (only v hv)).1.2)
    apply hp
    rw [hk, hk']
    ext <;> simp only [cross, vscale, zero3] <;> ring

end Simox.Pqp
