/-
Bounding volumes contain their triangles; orientation of bounding volumes; splitting of triangles.
-/
import Verif.Pqp.Fit

namespace Simox.Pqp

theorem tmulV_inTri {a b c p : V3} (h : inTri a b c p) (R : M3) :
    inTri (tmulV R a) (tmulV R b) (tmulV R c) (tmulV R p) := by
  obtain ⟨u, v, w, hu, hv, hw, hs, rfl⟩ := h
  refine ⟨u, v, w, hu, hv, hw, hs, ?_⟩
  ext <;> simp only [tmulV, dot] <;> ring

theorem convex_le {u v w a b c m : ℝ} (hu : 0 ≤ u) (hv : 0 ≤ v) (hw : 0 ≤ w) (hs : u + v + w = 1)
    (ha : a ≤ m) (hb : b ≤ m) (hc : c ≤ m) : u * a + v * b + w * c ≤ m := by
  have h1 := mul_le_mul_of_nonneg_left ha hu
  have h2 := mul_le_mul_of_nonneg_left hb hv
  have h3 := mul_le_mul_of_nonneg_left hc hw
  have : u * m + v * m + w * m = m := by rw [← add_mul, ← add_mul, hs, one_mul]
  linarith

theorem le_convex {u v w a b c m : ℝ} (hu : 0 ≤ u) (hv : 0 ≤ v) (hw : 0 ≤ w) (hs : u + v + w = 1)
    (ha : m ≤ a) (hb : m ≤ b) (hc : m ≤ c) : m ≤ u * a + v * b + w * c := by
  have h1 := mul_le_mul_of_nonneg_left ha hu
  have h2 := mul_le_mul_of_nonneg_left hb hv
  have h3 := mul_le_mul_of_nonneg_left hc hw
  have : u * m + v * m + w * m = m := by rw [← add_mul, ← add_mul, hs, one_mul]
  linarith

theorem convex_sq {u v w a b c : ℝ} (hu : 0 ≤ u) (hv : 0 ≤ v) (hw : 0 ≤ w) (hs : u + v + w = 1) :
    (u * a + v * b + w * c) * (u * a + v * b + w * c) ≤ u * (a * a) + v * (b * b) + w * (c * c) := by
  have hw' : w = 1 - u - v := by linarith
  have e : u * (a * a) + v * (b * b) + w * (c * c)
      - (u * a + v * b + w * c) * (u * a + v * b + w * c)
      = u * v * ((a - b) * (a - b)) + u * w * ((a - c) * (a - c)) + v * w * ((b - c) * (b - c)) := by
    rw [hw']; ring
  have h1 : 0 ≤ u * v * ((a - b) * (a - b)) := mul_nonneg (mul_nonneg hu hv) (mul_self_nonneg _)
  have h2 : 0 ≤ u * w * ((a - c) * (a - c)) := mul_nonneg (mul_nonneg hu hw) (mul_self_nonneg _)
  have h3 : 0 ≤ v * w * ((b - c) * (b - c)) := mul_nonneg (mul_nonneg hv hw) (mul_self_nonneg _)
  linarith

theorem Covered.convex {rad cz : ℝ} {q : Rect} {a b c p : V3} (ha : Covered rad cz q a)
    (hb : Covered rad cz q b) (hc : Covered rad cz q c) (h : inTri a b c p) : Covered rad cz q p := by
  obtain ⟨u, v, w, hu, hv, hw, hs, rfl⟩ := h
  obtain ⟨ua, va, a1, a2, a3, a4, a5⟩ := ha
  obtain ⟨ub, vb, b1, b2, b3, b4, b5⟩ := hb
  obtain ⟨uc, vc, c1, c2, c3, c4, c5⟩ := hc
  refine ⟨u * ua + v * ub + w * uc, u * va + v * vb + w * vc, le_convex hu hv hw hs a1 b1 c1,
    convex_le hu hv hw hs a2 b2 c2, le_convex hu hv hw hs a3 b3 c3, convex_le hu hv hw hs a4 b4 c4, ?_⟩
  have k1 := convex_sq (a := a.x - ua) (b := b.x - ub) (c := c.x - uc) hu hv hw hs
  have k2 := convex_sq (a := a.y - va) (b := b.y - vb) (c := c.y - vc) hu hv hw hs
  have k3 := convex_sq (a := a.z - cz) (b := b.z - cz) (c := c.z - cz) hu hv hw hs
  have k4 := convex_le hu hv hw hs a5 b5 c5
  have e1 : u * a.x + v * b.x + w * c.x - (u * ua + v * ub + w * uc)
      = u * (a.x - ua) + v * (b.x - ub) + w * (c.x - uc) := by ring
  have e2 : u * a.y + v * b.y + w * c.y - (u * va + v * vb + w * vc)
      = u * (a.y - va) + v * (b.y - vb) + w * (c.y - vc) := by ring
  have e3 : u * a.z + v * b.z + w * c.z - cz
      = u * (a.z - cz) + v * (b.z - cz) + w * (c.z - cz) := by
    linear_combination cz * hs
  simp only
  rw [e1, e2, e3]
  linarith

/-- Points of the box of a bounding volume. -/
def BV.box (b : BV) (p : V3) : Prop := ∃ v, inBox b.d v ∧ p = mulVpV b.R v b.To

/-- Points of the rounded rectangle of a bounding volume. -/
def BV.rss (b : BV) (p : V3) : Prop :=
  ∃ u v : ℝ, 0 ≤ u ∧ u ≤ b.l0 ∧ 0 ≤ v ∧ v ≤ b.l1 ∧
    dist2 p (mulVpV b.R ⟨u, v, 0⟩ b.Tr) ≤ b.r * b.r

theorem dist2_eq_dot (a b : V3) : dist2 a b = dot (vsub a b) (vsub a b) := rfl

theorem fit_some {R : M3} {ts : List Tri} (h : ts ≠ []) :
    ∃ b, fit R ts = some b ∧ b.R = R ∧ 0 ≤ b.r ∧ 0 ≤ b.l0 ∧ 0 ≤ b.l1 ∧
      (Orthonormal R → ∀ t ∈ ts, ∀ p, t.has p → b.box p ∧ b.rss p) := by
  have hm : ∀ t ∈ ts, tmulV R t.p1 ∈ points R ts ∧ tmulV R t.p2 ∈ points R ts ∧
      tmulV R t.p3 ∈ points R ts := by
    intro t ht
    simp only [points, List.mem_flatMap]
    refine ⟨⟨t, ht, by simp⟩, ⟨t, ht, by simp⟩, ⟨t, ht, by simp⟩⟩
  unfold fit
  cases hp : points R ts with
  | nil =>
    cases ts with
    | nil => exact absurd rfl h
    | cons t ts => simp [points] at hp
  | cons p0 ps =>
    simp only
    rw [hp] at hm
    obtain ⟨bx, _⟩ := minMax_pts V3.x p0 ps
    obtain ⟨b_y, _⟩ := minMax_pts V3.y p0 ps
    obtain ⟨bz, tz⟩ := minMax_pts V3.z p0 ps
    generalize hX : (ps.map V3.x).foldl minMax (p0.x, p0.x) = X at bx
    generalize hY : (ps.map V3.y).foldl minMax (p0.y, p0.y) = Y at b_y
    generalize hZ : (ps.map V3.z).foldl minMax (p0.z, p0.z) = Z at bz tz
    have hZle : Z.1 ≤ Z.2 := le_trans (bz p0 List.mem_cons_self).1 (bz p0 List.mem_cons_self).2
    have hz : ∀ p ∈ p0 :: ps, |p.z - 1 / 2 * (Z.2 + Z.1)| ≤ 1 / 2 * (Z.2 - Z.1) := by
      intro p hp
      have := bz p hp
      rw [abs_le]; constructor <;> linarith
    have ht : ∃ p ∈ p0 :: ps, |p.z - 1 / 2 * (Z.2 + Z.1)| = 1 / 2 * (Z.2 - Z.1) := by
      obtain ⟨p, hp, e⟩ := tz
      refine ⟨p, hp, ?_⟩
      rw [e, abs_of_nonneg] <;> linarith
    obtain ⟨cov, hqx, hqy⟩ := fitRect_covered hz ht
    generalize fitRect (1 / 2 * (Z.2 - Z.1) * (1 / 2 * (Z.2 - Z.1))) (1 / 2 * (Z.2 + Z.1)) p0 ps = q
      at cov hqx hqy
    have sx : side q.maxx q.minx = q.maxx - q.minx := by unfold side; rw [if_neg (by linarith)]
    have sy : side q.maxy q.miny = q.maxy - q.miny := by unfold side; rw [if_neg (by linarith)]
    refine ⟨_, rfl, rfl, ?_, ?_, ?_, ?_⟩
    · simp only; linarith
    · simp only; rw [sx]; linarith
    · simp only; rw [sy]; linarith
    · intro ho t htt p hpt
      obtain ⟨m1, m2, m3⟩ := hm t htt
      have hl := tmulV_inTri hpt R
      have hpe : p = mulV R (tmulV R p) := (mulV_tmulV ho p).symm
      constructor
      · refine ⟨vsub (tmulV R p) ⟨1 / 2 * (X.2 + X.1), 1 / 2 * (Y.2 + Y.1), 1 / 2 * (Z.2 + Z.1)⟩, ?_, ?_⟩
        · obtain ⟨u, v, w, hu, hv, hw, hs, e⟩ := hl
          have ex := congrArg V3.x e
          have ey := congrArg V3.y e
          have ez := congrArg V3.z e
          simp only at ex ey ez
          refine ⟨?_, ?_, ?_⟩ <;> simp only [vsub] <;> rw [abs_le]
          · rw [ex]
            have k1 := convex_le hu hv hw hs (bx _ m1).2 (bx _ m2).2 (bx _ m3).2
            have k2 := le_convex hu hv hw hs (bx _ m1).1 (bx _ m2).1 (bx _ m3).1
            constructor <;> linarith
          · rw [ey]
            have k1 := convex_le hu hv hw hs (b_y _ m1).2 (b_y _ m2).2 (b_y _ m3).2
            have k2 := le_convex hu hv hw hs (b_y _ m1).1 (b_y _ m2).1 (b_y _ m3).1
            constructor <;> linarith
          · rw [ez]
            have k1 := convex_le hu hv hw hs (bz _ m1).2 (bz _ m2).2 (bz _ m3).2
            have k2 := le_convex hu hv hw hs (bz _ m1).1 (bz _ m2).1 (bz _ m3).1
            constructor <;> linarith
        · conv_lhs => rw [hpe]
          ext <;> simp only [mulV, mulVpV, vsub] <;> ring
      · obtain ⟨u, v, h1, h2, h3, h4, h5⟩ := Covered.convex (cov _ m1) (cov _ m2) (cov _ m3) hl
        refine ⟨u - q.minx, v - q.miny, by linarith, ?_, by linarith, ?_, ?_⟩
        · simp only; rw [sx]; linarith
        · simp only; rw [sy]; linarith
        · have e : vsub p (mulVpV R ⟨u - q.minx, v - q.miny, 0⟩
              (mulV R ⟨q.minx, q.miny, 1 / 2 * (Z.2 + Z.1)⟩))
              = mulV R (vsub (tmulV R p) ⟨u, v, 1 / 2 * (Z.2 + Z.1)⟩) := by
            conv_lhs => rw [hpe]
            ext <;> simp only [mulV, mulVpV, vsub] <;> ring
          rw [dist2_eq_dot, e, dot_mulV ho]
          simp only [dot, vsub]
          exact h5

/-! ### Orientation -/

theorem rotCols_orth {s tau c : ℝ} (hc : c * c + s * s = 1) (ht : tau * (1 + c) = s) (hc1 : 0 < 1 + c)
    (g h : V3) :
    (rotCols s tau g h).1 = ⟨c * g.x - s * h.x, c * g.y - s * h.y, c * g.z - s * h.z⟩ ∧
    (rotCols s tau g h).2 = ⟨c * h.x + s * g.x, c * h.y + s * g.y, c * h.z + s * g.z⟩ := by
  have hs : s * tau = 1 - c := by
    have : s * tau * (1 + c) = (1 - c) * (1 + c) := by
      rw [mul_assoc, ht]; linear_combination hc
    exact mul_right_cancel₀ (ne_of_gt hc1) this
  constructor
  · ext <;> simp only [rotCols]
    · linear_combination (-g.x) * hs
    · linear_combination (-g.y) * hs
    · linear_combination (-g.z) * hs
  · ext <;> simp only [rotCols]
    · linear_combination (-h.x) * hs
    · linear_combination (-h.y) * hs
    · linear_combination (-h.z) * hs

theorem rotate_orthonormal {v : M3} (h : Orthonormal v) (p : Plane) (t : ℝ) :
    Orthonormal (rotate v p t) := by
  obtain ⟨h00, h11, h22, h01, h02, h12⟩ := h
  have hpos : 0 < 1 + t * t := by nlinarith [mul_self_nonneg t]
  have hsq := Real.mul_self_sqrt hpos.le
  have hsp := Real.sqrt_pos.mpr hpos
  have hcpos : 0 < 1 / Real.sqrt (1 + t * t) := by positivity
  obtain ⟨c, hc⟩ : ∃ c, c = 1 / Real.sqrt (1 + t * t) := ⟨_, rfl⟩
  have hcc : c * c + t * c * (t * c) = 1 := by
    have : c * c * (1 + t * t) = 1 := by
      generalize Real.sqrt (1 + t * t) = w at hsq hsp hc
      rw [← hsq, hc]; field_simp
    linarith
  rw [← hc] at hcpos
  have htau : t * c / (1 + c) * (1 + c) = t * c := div_mul_cancel₀ _ (by linarith)
  have rc := fun g k => rotCols_orth hcc htau (by linarith) g k
  simp only [dot] at h00 h11 h22 h01 h02 h12
  obtain ⟨s, hs⟩ : ∃ s, s = t * c := ⟨_, rfl⟩
  cases p <;> simp only [rotate, ← hc] <;> simp only [Orthonormal, (rc _ _).1, (rc _ _).2, dot] <;>
    rw [← hs] at hcc ⊢ <;> refine ⟨?_, ?_, ?_, ?_, ?_, ?_⟩
  · linear_combination c * c * h00 + s * s * h11 - 2 * c * s * h01 + hcc
  · linear_combination c * c * h11 + s * s * h00 + 2 * c * s * h01 + hcc
  · exact h22
  · linear_combination (c * s) * h00 - (c * s) * h11 + (c * c - s * s) * h01
  · linear_combination c * h02 - s * h12
  · linear_combination c * h12 + s * h02
  · linear_combination c * c * h00 + s * s * h22 - 2 * c * s * h02 + hcc
  · exact h11
  · linear_combination c * c * h22 + s * s * h00 + 2 * c * s * h02 + hcc
  · linear_combination c * h01 - s * h12
  · linear_combination (c * s) * h00 - (c * s) * h22 + (c * c - s * s) * h02
  · linear_combination c * h12 + s * h01
  · exact h00
  · linear_combination c * c * h11 + s * s * h22 - 2 * c * s * h12 + hcc
  · linear_combination c * c * h22 + s * s * h11 + 2 * c * s * h12 + hcc
  · linear_combination c * h01 - s * h02
  · linear_combination c * h02 + s * h01
  · linear_combination (c * s) * h11 - (c * s) * h22 + (c * c - s * s) * h12

theorem eigenvectors_orthonormal (rs : List (Plane × ℝ)) : Orthonormal (eigenvectors rs) := by
  unfold eigenvectors
  have : ∀ v, Orthonormal v → Orthonormal (rs.foldl (fun v r => rotate v r.1 r.2) v) := by
    induction rs with
    | nil => intro v h; exact h
    | cons r rs ih => intro v h; exact ih _ (rotate_orthonormal h _ _)
  exact this _ Orthonormal.one

theorem col_orth {E : M3} (h : Orthonormal E) (i j : Fin 3) :
    dot (E.col i) (E.col j) = if i = j then 1 else 0 := by
  obtain ⟨h00, h11, h22, h01, h02, h12⟩ := h
  have comm : ∀ a b : V3, dot a b = dot b a := by intro a b; simp only [dot]; ring
  fin_cases i <;> fin_cases j <;> simp [M3.col, *]

theorem axisOrder_ne (s : V3) : (axisOrder s).1 ≠ (axisOrder s).2 := by
  unfold axisOrder
  simp only
  split_ifs <;> simp

theorem frame_orthonormal (eig : Eigen) (ts : List Tri) : Orthonormal (frame eig ts) := by
  have hE := eigenvectors_orthonormal (eig ts).1
  have hne := axisOrder_ne (eig ts).2
  unfold frame
  simp only
  generalize eigenvectors (eig ts).1 = E at hE
  generalize axisOrder (eig ts).2 = o at hne
  have h0 := col_orth hE o.1 o.1
  have h1 := col_orth hE o.2 o.2
  have h2 := col_orth hE o.1 o.2
  rw [if_pos rfl] at h0 h1
  rw [if_neg hne] at h2
  generalize E.col o.1 = a at *
  generalize E.col o.2 = b at *
  simp only [dot] at h0 h1 h2
  refine ⟨h0, h1, ?_, h2, ?_, ?_⟩ <;> simp only [dot, cross]
  · linear_combination (b.x * b.x + b.y * b.y + b.z * b.z) * h0 + h1
      - (a.x * b.x + a.y * b.y + a.z * b.z) * h2
  · ring
  · ring

/-! ### Splitting -/

theorem splitLoop_perm (hit : Tri → Bool) (g1 g2 xs : List Tri) :
    (splitLoop hit g1 g2 xs).1.Perm (g1 ++ g2 ++ xs) ∧
    (splitLoop hit g1 g2 xs).2 ≤ (g1 ++ g2 ++ xs).length := by
  induction xs generalizing g1 g2 with
  | nil => simp [splitLoop]
  | cons x xs ih =>
    unfold splitLoop
    split_ifs
    · cases g2 with
      | nil =>
        simp only
        obtain ⟨h1, h2⟩ := ih (g1 ++ [x]) []
        exact ⟨by simpa using h1, by simp at h2 ⊢; omega⟩
      | cons y ys =>
        simp only
        obtain ⟨h1, h2⟩ := ih (g1 ++ [x]) (ys ++ [y])
        refine ⟨h1.trans ?_, by simp at h2 ⊢; omega⟩
        simp only [List.append_assoc]
        refine List.Perm.append_left g1 ?_
        have : ([x] ++ (ys ++ ([y] ++ xs))).Perm (x :: (y :: (ys ++ xs))) := by
          refine List.Perm.cons x ?_
          simp
        refine this.trans ?_
        refine (List.Perm.swap y x _).trans ?_
        simpa using (List.perm_middle (a := x) (l₁ := ys) (l₂ := xs)).symm
    · obtain ⟨h1, h2⟩ := ih g1 (g2 ++ [x])
      exact ⟨by simpa using h1, by simp at h2 ⊢; omega⟩

theorem splitTris_perm (ts : List Tri) (axis : V3) (c : ℝ) : (splitTris ts axis c).1.Perm ts := by
  have := (splitLoop_perm (firstGroup axis c) [] [] ts).1
  simpa [splitTris] using this

theorem splitTris_size {ts : List Tri} (h : 1 < ts.length) (axis : V3) (c : ℝ) :
    0 < (splitTris ts axis c).2 ∧ (splitTris ts axis c).2 < ts.length := by
  have h2 := (splitLoop_perm (firstGroup axis c) [] [] ts).2
  simp at h2
  unfold splitTris
  simp only
  split_ifs with h3
  · constructor <;> omega
  · push Not at h3
    constructor <;> omega

end Simox.Pqp
