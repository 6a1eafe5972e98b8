/-
Fitting bounding volumes: the box and the rounded rectangle contain the triangles.
-/
import Verif.Pqp.Geom2

namespace Simox.Pqp

/-! ### Smallest and largest value -/

theorem minMax_fold (l : List ℝ) (acc : ℝ × ℝ) (h : acc.1 ≤ acc.2) :
    (l.foldl minMax acc).1 ≤ acc.1 ∧ acc.2 ≤ (l.foldl minMax acc).2 ∧
    (∀ v ∈ l, (l.foldl minMax acc).1 ≤ v ∧ v ≤ (l.foldl minMax acc).2) ∧
    (l.foldl minMax acc).1 ∈ acc.1 :: l ∧ (l.foldl minMax acc).2 ∈ acc.2 :: l := by
  induction l generalizing acc with
  | nil => simp
  | cons w l ih =>
    have step : (minMax acc w).1 ≤ acc.1 ∧ acc.2 ≤ (minMax acc w).2 ∧ (minMax acc w).1 ≤ w ∧
        w ≤ (minMax acc w).2 ∧ (minMax acc w).1 ≤ (minMax acc w).2 ∧
        ((minMax acc w).1 = acc.1 ∨ (minMax acc w).1 = w) ∧
        ((minMax acc w).2 = acc.2 ∨ (minMax acc w).2 = w) := by
      unfold minMax
      split_ifs with h1 h2
      · exact ⟨by simp; linarith, le_refl _, le_refl _, by simp; linarith, by simp; linarith,
          Or.inr rfl, Or.inl rfl⟩
      · exact ⟨le_refl _, by simp; linarith, by simp; linarith, le_refl _, by simp; linarith,
          Or.inl rfl, Or.inr rfl⟩
      · exact ⟨le_refl _, le_refl _, by linarith, by linarith, h, Or.inl rfl, Or.inl rfl⟩
    obtain ⟨s1, s2, s3, s4, s5, s6, s7⟩ := step
    obtain ⟨i1, i2, i3, i4, i5⟩ := ih (minMax acc w) s5
    simp only [List.foldl_cons]
    refine ⟨by linarith, by linarith, ?_, ?_, ?_⟩
    · intro v hv
      rcases List.mem_cons.mp hv with rfl | hv
      · exact ⟨by linarith, by linarith⟩
      · exact i3 v hv
    · rcases List.mem_cons.mp i4 with e | e
      · rw [e]
        rcases s6 with e' | e' <;> rw [e'] <;> simp
      · simp [e]
    · rcases List.mem_cons.mp i5 with e | e
      · rw [e]
        rcases s7 with e' | e' <;> rw [e'] <;> simp
      · simp [e]

/-- Bounds of one coordinate over all points. -/
theorem minMax_pts (f : V3 → ℝ) (p0 : V3) (ps : List V3) :
    (∀ q ∈ p0 :: ps, ((ps.map f).foldl minMax (f p0, f p0)).1 ≤ f q ∧
      f q ≤ ((ps.map f).foldl minMax (f p0, f p0)).2) ∧
    (∃ q ∈ p0 :: ps, f q = ((ps.map f).foldl minMax (f p0, f p0)).2) := by
  obtain ⟨h1, h2, h3, h4, h5⟩ := minMax_fold (ps.map f) (f p0, f p0) (le_refl _)
  refine ⟨?_, ?_⟩
  · intro q hq
    rcases List.mem_cons.mp hq with rfl | hq
    · exact ⟨h1, h2⟩
    · exact h3 _ (List.mem_map_of_mem hq)
  · rcases List.mem_cons.mp h5 with e | e
    · exact ⟨p0, List.mem_cons_self, e.symm⟩
    · obtain ⟨q, hq, e⟩ := List.mem_map.mp e
      exact ⟨q, List.mem_cons_of_mem _ hq, e⟩

/-! ### The rounded rectangle -/

theorem slack_nonneg (r dz : ℝ) : 0 ≤ slack r dz := Real.sqrt_nonneg _

theorem slack_sq {rad dz : ℝ} (h : |dz| ≤ rad) :
    slack (rad * rad) dz * slack (rad * rad) dz = rad * rad - dz * dz := by
  have h2 := abs_le.mp h
  have : 0 ≤ rad * rad - dz * dz := by nlinarith
  unfold slack
  rw [max_eq_left this, Real.mul_self_sqrt this]

/-- One rectangle contains the other. -/
def Rect.le (a b : Rect) : Prop :=
  b.minx ≤ a.minx ∧ a.maxx ≤ b.maxx ∧ b.miny ≤ a.miny ∧ a.maxy ≤ b.maxy

theorem Rect.le_refl (a : Rect) : a.le a := ⟨_root_.le_refl _, _root_.le_refl _, _root_.le_refl _, _root_.le_refl _⟩

theorem Rect.le_trans {a b c : Rect} (h1 : a.le b) (h2 : b.le c) : a.le c :=
  ⟨h2.1.trans h1.1, h1.2.1.trans h2.2.1, h2.2.2.1.trans h1.2.2.1, h1.2.2.2.trans h2.2.2.2⟩

/-- The sides reach a point up to its slack. -/
def Reach (rad cz : ℝ) (q : Rect) (p : V3) : Prop :=
  q.minx ≤ p.x + slack (rad * rad) (p.z - cz) ∧ p.x - slack (rad * rad) (p.z - cz) ≤ q.maxx ∧
  q.miny ≤ p.y + slack (rad * rad) (p.z - cz) ∧ p.y - slack (rad * rad) (p.z - cz) ≤ q.maxy

theorem Reach.mono {rad cz : ℝ} {q q' : Rect} {p : V3} (h : Reach rad cz q p) (hle : q.le q') :
    Reach rad cz q' p :=
  ⟨hle.1.trans h.1, h.2.1.trans hle.2.1, hle.2.2.1.trans h.2.2.1, h.2.2.2.trans hle.2.2.2⟩

theorem rectGrow_le (rad cz : ℝ) (q : Rect) (p : V3) : q.le (rectGrow (rad * rad) cz q p) := by
  unfold rectGrow Rect.le
  refine ⟨?_, ?_, ?_, ?_⟩ <;> simp only <;> split_ifs <;> linarith

theorem rectGrow_reach (rad cz : ℝ) (q : Rect) (p : V3) :
    Reach rad cz (rectGrow (rad * rad) cz q p) p := by
  have hs := slack_nonneg (rad * rad) (p.z - cz)
  unfold rectGrow Reach
  refine ⟨?_, ?_, ?_, ?_⟩ <;> simp only <;> split_ifs <;> linarith

theorem grow_fold (rad cz : ℝ) (ps : List V3) (q : Rect) :
    q.le (ps.foldl (rectGrow (rad * rad) cz) q) ∧
    ∀ p ∈ ps, Reach rad cz (ps.foldl (rectGrow (rad * rad) cz) q) p := by
  induction ps generalizing q with
  | nil => exact ⟨Rect.le_refl _, by simp⟩
  | cons p ps ih =>
    obtain ⟨h1, h2⟩ := ih (rectGrow (rad * rad) cz q p)
    refine ⟨Rect.le_trans (rectGrow_le rad cz q p) h1, ?_⟩
    intro p' hp'
    rcases List.mem_cons.mp hp' with rfl | hp'
    · exact (rectGrow_reach rad cz q p').mono h1
    · exact h2 p' hp'

/-- A point is within the radius of the rectangle. -/
def Covered (rad cz : ℝ) (q : Rect) (p : V3) : Prop :=
  ∃ u v : ℝ, q.minx ≤ u ∧ u ≤ q.maxx ∧ q.miny ≤ v ∧ v ≤ q.maxy ∧
    (p.x - u) * (p.x - u) + (p.y - v) * (p.y - v) + (p.z - cz) * (p.z - cz) ≤ rad * rad

theorem Covered.mono {rad cz : ℝ} {q q' : Rect} {p : V3} (h : Covered rad cz q p) (hle : q.le q') :
    Covered rad cz q' p := by
  obtain ⟨u, v, h1, h2, h3, h4, h5⟩ := h
  exact ⟨u, v, hle.1.trans h1, h2.trans hle.2.1, hle.2.2.1.trans h3, h4.trans hle.2.2.2, h5⟩

theorem half_pos : 0 < Real.sqrt (1 / 2) := Real.sqrt_pos.mpr (by norm_num)

theorem half_sq : Real.sqrt (1 / 2) * Real.sqrt (1 / 2) = 1 / 2 := Real.mul_self_sqrt (by norm_num)

theorem cornerMove_sign {rr cz ux uy dx dy pz : ℝ} (hx : ux * ux = 1) (hy : uy * uy = 1) :
    cornerMove rr cz ux uy dx dy pz = cornerMove rr cz 1 1 (ux * dx) (uy * dy) pz := by
  unfold cornerMove
  have e : ∀ a u : ℝ, (ux * a * u - dx) * (ux * a * u - dx) + (uy * a * u - dy) * (uy * a * u - dy)
      = (1 * a * u - ux * dx) * (1 * a * u - ux * dx) + (1 * a * u - uy * dy) * (1 * a * u - uy * dy) := by
    intro a u
    have h1 : (1 * a * u - ux * dx) * (1 * a * u - ux * dx)
        = (ux * a * u - dx) * (ux * a * u - dx) := by
      linear_combination (dx * dx - a ^ 2 * u ^ 2) * hx
    have h2 : (1 * a * u - uy * dy) * (1 * a * u - uy * dy)
        = (uy * a * u - dy) * (uy * a * u - dy) := by
      linear_combination (dy * dy - a ^ 2 * u ^ 2) * hy
    rw [h1, h2]
  simp only [e]
  simp only [one_mul]

theorem corner_move {rad cz dx dy pz s : ℝ} (hx : 0 < dx) (hy : 0 < dy) (hxs : dx ≤ s)
    (hys : dy ≤ s) (hs : s * s = rad * rad - (pz - cz) * (pz - cz)) :
    (cornerMove (rad * rad) cz 1 1 dx dy pz ≤ 0 →
      dx * dx + dy * dy + (pz - cz) * (pz - cz) ≤ rad * rad) ∧
    (dx - cornerMove (rad * rad) cz 1 1 dx dy pz * Real.sqrt (1 / 2)) *
        (dx - cornerMove (rad * rad) cz 1 1 dx dy pz * Real.sqrt (1 / 2)) +
      (dy - cornerMove (rad * rad) cz 1 1 dx dy pz * Real.sqrt (1 / 2)) *
        (dy - cornerMove (rad * rad) cz 1 1 dx dy pz * Real.sqrt (1 / 2)) +
      (pz - cz) * (pz - cz) ≤ rad * rad := by
  have ha := half_sq
  have hap := half_pos
  obtain ⟨a, hae⟩ : ∃ a, a = Real.sqrt (1 / 2) := ⟨_, rfl⟩
  rw [← hae] at ha hap ⊢
  obtain ⟨t, hte⟩ : ∃ t, t = (1 * a * (1 * dx * a + 1 * dy * a) - dx) *
      (1 * a * (1 * dx * a + 1 * dy * a) - dx) +
      (1 * a * (1 * dx * a + 1 * dy * a) - dy) * (1 * a * (1 * dx * a + 1 * dy * a) - dy) +
      (cz - pz) * (cz - pz) := ⟨_, rfl⟩
  have ht : t = (dx - dy) * (dx - dy) / 2 + (pz - cz) * (pz - cz) := by
    rw [hte]
    have e1 : 1 * a * (1 * dx * a + 1 * dy * a) = (dx + dy) / 2 := by
      linear_combination (dx + dy) * ha
    rw [e1]; ring
  have htr : 0 ≤ rad * rad - t := by
    rw [ht]; nlinarith
  have hm : cornerMove (rad * rad) cz 1 1 dx dy pz = (dx + dy) * a - Real.sqrt (rad * rad - t) := by
    unfold cornerMove
    simp only [← hae, ← hte]
    rw [max_eq_left htr]; ring
  have hq := Real.mul_self_sqrt htr
  have hqn := Real.sqrt_nonneg (rad * rad - t)
  generalize Real.sqrt (rad * rad - t) = w at hm hq hqn
  rw [hm]
  have hu : (dx + dy) * a * ((dx + dy) * a) = (dx + dy) * (dx + dy) / 2 := by
    linear_combination (dx + dy) * (dx + dy) * ha
  constructor
  · intro hle
    have hun : 0 ≤ (dx + dy) * a := by positivity
    have : (dx + dy) * a * ((dx + dy) * a) ≤ w * w := by
      apply mul_self_le_mul_self hun; linarith
    nlinarith
  · apply le_of_eq
    have : (dx - ((dx + dy) * a - w) * a) * (dx - ((dx + dy) * a - w) * a) +
        (dy - ((dx + dy) * a - w) * a) * (dy - ((dx + dy) * a - w) * a)
        = (dx - dy) * (dx - dy) / 2 + w * w := by
      linear_combination ((dx + dy) * (dx + dy) * (2 * a * a - 1) - 4 * (dx + dy) * w * a + 2 * w * w) * ha
    rw [this, hq, ht]; ring

theorem rectCorner_le (rad cz : ℝ) (q : Rect) (p : V3) : q.le (rectCorner (rad * rad) cz q p) := by
  have ha := half_pos
  unfold rectCorner
  simp only
  split_ifs with h1 h2 h3 h4 h5 h6 h7 h8 h9 h10 <;>
    first
    | exact Rect.le_refl _
    | (have := mul_pos ‹_ > (0:ℝ)› ha
       refine ⟨?_, ?_, ?_, ?_⟩ <;> simp only <;> linarith)

theorem rectCorner_covered {rad cz : ℝ} {q : Rect} {p : V3} (hr : Reach rad cz q p)
    (hz : |p.z - cz| ≤ rad) (hx : q.minx ≤ q.maxx) (hy : q.miny ≤ q.maxy) :
    Covered rad cz (rectCorner (rad * rad) cz q p) p := by
  have hs := slack_sq hz
  have hsn := slack_nonneg (rad * rad) (p.z - cz)
  obtain ⟨r1, r2, r3, r4⟩ := hr
  generalize slack (rad * rad) (p.z - cz) = s at hs hsn r1 r2 r3 r4
  unfold rectCorner
  simp only
  by_cases c1 : p.x > q.maxx
  · rw [if_pos c1]
    by_cases c2 : p.y > q.maxy
    · rw [if_pos c2]
      obtain ⟨m1, m2⟩ := corner_move (rad := rad) (cz := cz) (pz := p.z) (dx := p.x - q.maxx)
        (dy := p.y - q.maxy) (s := s) (by linarith) (by linarith) (by linarith) (by linarith) hs
      split_ifs with hu
      · have := mul_pos hu half_pos
        refine ⟨_, _, ?_, le_refl _, ?_, le_refl _, ?_⟩
        · simp only; linarith
        · simp only; linarith
        · simp only; nlinarith [m2]
      · exact ⟨q.maxx, q.maxy, hx, le_refl _, hy, le_refl _, by nlinarith [m1 (not_lt.mp hu)]⟩
    · rw [if_neg c2]
      by_cases c3 : p.y < q.miny
      · rw [if_pos c3]
        rw [cornerMove_sign (ux := 1) (uy := -1) (by norm_num) (by norm_num)]
        obtain ⟨m1, m2⟩ := corner_move (rad := rad) (cz := cz) (pz := p.z) (dx := 1 * (p.x - q.maxx))
          (dy := -1 * (p.y - q.miny)) (s := s) (by linarith) (by linarith) (by linarith) (by linarith) hs
        split_ifs with hu
        · have := mul_pos hu half_pos
          refine ⟨_, _, ?_, le_refl _, le_refl _, ?_, ?_⟩
          · simp only; linarith
          · simp only; linarith
          · simp only; nlinarith [m2]
        · exact ⟨q.maxx, q.miny, hx, le_refl _, le_refl _, hy, by nlinarith [m1 (not_lt.mp hu)]⟩
      · rw [if_neg c3]
        exact ⟨q.maxx, p.y, hx, le_refl _, not_lt.mp c3, not_lt.mp c2, by nlinarith⟩
  · rw [if_neg c1]
    by_cases c4 : p.x < q.minx
    · rw [if_pos c4]
      by_cases c2 : p.y > q.maxy
      · rw [if_pos c2]
        rw [cornerMove_sign (ux := -1) (uy := 1) (by norm_num) (by norm_num)]
        obtain ⟨m1, m2⟩ := corner_move (rad := rad) (cz := cz) (pz := p.z) (dx := -1 * (p.x - q.minx))
          (dy := 1 * (p.y - q.maxy)) (s := s) (by linarith) (by linarith) (by linarith) (by linarith) hs
        split_ifs with hu
        · have := mul_pos hu half_pos
          refine ⟨_, _, le_refl _, ?_, ?_, le_refl _, ?_⟩
          · simp only; linarith
          · simp only; linarith
          · simp only; nlinarith [m2]
        · exact ⟨q.minx, q.maxy, le_refl _, hx, hy, le_refl _, by nlinarith [m1 (not_lt.mp hu)]⟩
      · rw [if_neg c2]
        by_cases c3 : p.y < q.miny
        · rw [if_pos c3]
          rw [cornerMove_sign (ux := -1) (uy := -1) (by norm_num) (by norm_num)]
          obtain ⟨m1, m2⟩ := corner_move (rad := rad) (cz := cz) (pz := p.z)
            (dx := -1 * (p.x - q.minx)) (dy := -1 * (p.y - q.miny)) (s := s)
            (by linarith) (by linarith) (by linarith) (by linarith) hs
          split_ifs with hu
          · have := mul_pos hu half_pos
            refine ⟨_, _, le_refl _, ?_, le_refl _, ?_, ?_⟩
            · simp only; linarith
            · simp only; linarith
            · simp only; nlinarith [m2]
          · exact ⟨q.minx, q.miny, le_refl _, hx, le_refl _, hy, by nlinarith [m1 (not_lt.mp hu)]⟩
        · rw [if_neg c3]
          exact ⟨q.minx, p.y, le_refl _, hx, not_lt.mp c3, not_lt.mp c2, by nlinarith⟩
    · rw [if_neg c4]
      by_cases c2 : p.y > q.maxy
      · exact ⟨p.x, q.maxy, not_lt.mp c4, not_lt.mp c1, hy, le_refl _, by nlinarith⟩
      · by_cases c3 : p.y < q.miny
        · exact ⟨p.x, q.miny, not_lt.mp c4, not_lt.mp c1, le_refl _, hy, by nlinarith⟩
        · exact ⟨p.x, p.y, not_lt.mp c4, not_lt.mp c1, not_lt.mp c3, not_lt.mp c2, by nlinarith⟩

theorem corner_fold (rad cz : ℝ) (ps : List V3) (q : Rect) (hr : ∀ p ∈ ps, Reach rad cz q p)
    (hz : ∀ p ∈ ps, |p.z - cz| ≤ rad) (hx : q.minx ≤ q.maxx) (hy : q.miny ≤ q.maxy) :
    q.le (ps.foldl (rectCorner (rad * rad) cz) q) ∧
    ∀ p ∈ ps, Covered rad cz (ps.foldl (rectCorner (rad * rad) cz) q) p := by
  induction ps generalizing q with
  | nil => exact ⟨Rect.le_refl _, by simp⟩
  | cons p ps ih =>
    have hle := rectCorner_le rad cz q p
    obtain ⟨h1, h2⟩ := ih (rectCorner (rad * rad) cz q p)
      (fun p' hp' => (hr p' (List.mem_cons_of_mem _ hp')).mono hle)
      (fun p' hp' => hz p' (List.mem_cons_of_mem _ hp'))
      (by have := hle.1; have := hle.2.1; linarith) (by have := hle.2.2.1; have := hle.2.2.2; linarith)
    refine ⟨Rect.le_trans hle h1, ?_⟩
    intro p' hp'
    rcases List.mem_cons.mp hp' with rfl | hp'
    · exact (rectCorner_covered (hr p' List.mem_cons_self) (hz p' List.mem_cons_self) hx hy).mono h1
    · exact h2 p' hp'

/-- The fitted rectangle covers all points and is not turned inside out. -/
theorem fitRect_covered {rad cz : ℝ} {p0 : V3} {ps : List V3}
    (hz : ∀ p ∈ p0 :: ps, |p.z - cz| ≤ rad) (ht : ∃ p ∈ p0 :: ps, |p.z - cz| = rad) :
    (∀ p ∈ p0 :: ps, Covered rad cz (fitRect (rad * rad) cz p0 ps) p) ∧
    (fitRect (rad * rad) cz p0 ps).minx ≤ (fitRect (rad * rad) cz p0 ps).maxx ∧
    (fitRect (rad * rad) cz p0 ps).miny ≤ (fitRect (rad * rad) cz p0 ps).maxy := by
  unfold fitRect
  simp only
  generalize rectInit (rad * rad) cz (ps.foldl (minMaxPt V3.x) (p0, p0))
    (ps.foldl (minMaxPt V3.y) (p0, p0)) = q0
  obtain ⟨_, g2⟩ := grow_fold rad cz (p0 :: ps) q0
  generalize (p0 :: ps).foldl (rectGrow (rad * rad) cz) q0 = q1 at g2
  obtain ⟨t, ht, hte⟩ := ht
  have hs : slack (rad * rad) (t.z - cz) = 0 := by
    unfold slack
    have : rad * rad - (t.z - cz) * (t.z - cz) = 0 := by
      rw [← hte, abs_mul_abs_self]; ring
    rw [this]; simp
  obtain ⟨a1, a2, a3, a4⟩ := g2 t ht
  rw [hs] at a1 a2 a3 a4
  have hx : q1.minx ≤ q1.maxx := by linarith
  have hy : q1.miny ≤ q1.maxy := by linarith
  obtain ⟨c1, c2⟩ := corner_fold rad cz (p0 :: ps) q1 g2 hz hx hy
  refine ⟨c2, ?_, ?_⟩
  · have := c1.1; have := c1.2.1; linarith
  · have := c1.2.2.1; have := c1.2.2.2; linarith

end Simox.Pqp
