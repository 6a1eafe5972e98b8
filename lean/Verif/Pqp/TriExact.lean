/-
The test of two triangles finds their distance.
-/
import Verif.Pqp.TriLem

namespace Simox.Pqp

/-- The normal of the triangle is not too short to be noticed: it is zero (corners on one line) or its
square is above the threshold of the program. -/
def Regular (S : Corners) : Prop :=
  dot (normal3 S) (normal3 S) ≤ 1 / 1000000000000000 → normal3 S = zero3

theorem Regular.big {S : Corners} (h : Regular S) (hn : normal3 S ≠ zero3) :
    dot (normal3 S) (normal3 S) > 1 / 1000000000000000 := by
  by_contra hc
  exact hn (h (not_lt.mp hc))

/-! ### The nearest corner -/

theorem nearest_pos {w : Fin 3 → ℝ} (h : ∀ j, 0 < w j) : ∃ k, nearest w = some k ∧ ∀ j, w k ≤ w j := by
  unfold nearest
  rw [if_pos ⟨h 0, h 1, h 2⟩]
  refine ⟨_, rfl, ?_⟩
  refine forall_fin3 ?_ ?_ ?_ <;> split_ifs <;> linarith

theorem nearest_neg {w : Fin 3 → ℝ} (h : ∀ j, w j < 0) : ∃ k, nearest w = some k ∧ ∀ j, w j ≤ w k := by
  unfold nearest
  rw [if_neg (fun hc => absurd hc.1 (not_lt.mpr (h 0).le)), if_pos ⟨h 0, h 1, h 2⟩]
  refine ⟨_, rfl, ?_⟩
  refine forall_fin3 ?_ ?_ ?_ <;> split_ifs <;> linarith

theorem nearest_some {w : Fin 3 → ℝ} {k : Fin 3} (h : nearest w = some k) :
    (∀ j, 0 < w j ∧ w k ≤ w j) ∨ (∀ j, w j < 0 ∧ w j ≤ w k) := by
  by_cases hp : w 0 > 0 ∧ w 1 > 0 ∧ w 2 > 0
  · have hp' := forall_fin3 (p := fun j => 0 < w j) hp.1 hp.2.1 hp.2.2
    obtain ⟨k', e, hk⟩ := nearest_pos hp'
    rw [h] at e
    obtain rfl := Option.some.inj e
    exact .inl (fun j => ⟨hp' j, hk j⟩)
  · by_cases hm : w 0 < 0 ∧ w 1 < 0 ∧ w 2 < 0
    · have hm' := forall_fin3 (p := fun j => w j < 0) hm.1 hm.2.1 hm.2.2
      obtain ⟨k', e, hk⟩ := nearest_neg hm'
      rw [h] at e
      obtain rfl := Option.some.inj e
      exact .inr (fun j => ⟨hm' j, hk j⟩)
    · unfold nearest at h
      rw [if_neg hp, if_neg hm] at h
      exact absurd h (by simp)

/-! ### Corner above a face -/

/-- The triangles have no point in common. -/
def Apart (S T : Corners) : Prop := ∀ z, inS S z → ¬ inS T z

theorem vsub_dot (a b d : V3) : dot (vsub a b) d = dot a d - dot b d := by
  simp only [dot, vsub]; ring

theorem inS_dot {S : Corners} {z : V3} (h : inS S z) : dot z (normal3 S) = dot (S 0) (normal3 S) := by
  have := normal_plane S h
  rw [inPlane, vsub_dot] at this
  linarith

theorem faceTest_sep {S T : Corners} {o : Option (V3 × V3)} (h : faceTest S T = (true, o)) : Apart S T := by
  intro z hS hT
  have hz := inS_dot hS
  have hn : normal3 S = cross (sideVec S 0) (sideVec S 1) := rfl
  unfold faceTest at h
  simp only [← hn] at h
  split_ifs at h with hl
  · split at h
    · simp at h
    · next k hk =>
      rcases nearest_some hk with hw | hw
      · have := dot_inS hT (d := normal3 S) (c := dot z (normal3 S) - dot (vsub (S 0) (T k)) (normal3 S))
          (fun j => by
            have := (hw j).2
            rw [vsub_dot, vsub_dot] at this
            rw [vsub_dot]; linarith)
        have := (hw k).1
        linarith
      · have := dot_inS_ge hT (d := normal3 S) (c := dot z (normal3 S) - dot (vsub (S 0) (T k)) (normal3 S))
          (fun j => by
            have := (hw j).2
            rw [vsub_dot, vsub_dot] at this
            rw [vsub_dot]; linarith)
        have := (hw k).1
        linarith
  · simp at h

theorem faceTest_exact {S T : Corners} {b : Bool} {c f : V3} (h : faceTest S T = (b, some (c, f))) :
    inS S f ∧ inS T c ∧ ∀ x y, inS S x → inS T y → len3 (vsub c f) ≤ len3 (vsub y x) := by
  have hn : normal3 S = cross (sideVec S 0) (sideVec S 1) := rfl
  unfold faceTest at h
  simp only [← hn] at h
  split_ifs at h with hl
  · split at h
    · simp at h
    · next k hk =>
      split_ifs at h with hin
      · simp only [Prod.mk.injEq, Option.some.injEq] at h
        obtain ⟨-, hc, hf⟩ := h
        subst hc
        have hpos : 0 < dot (normal3 S) (normal3 S) := lt_trans (by norm_num) hl
        have hne := hpos.ne'
        have key : dot (vsub (S 0) (T k)) (normal3 S) / dot (normal3 S) (normal3 S)
            * dot (normal3 S) (normal3 S) = dot (vsub (S 0) (T k)) (normal3 S) := div_mul_cancel₀ _ hne
        generalize hq : dot (vsub (S 0) (T k)) (normal3 S) / dot (normal3 S) (normal3 S) = q at *
        subst hf
        refine ⟨?_, corner_inS T k, ?_⟩
        · refine inS_of_bary hpos ?_ ?_
          · rw [inPlane]
            have : dot (vsub (vaddScaled (T k) (normal3 S) q) (S 0)) (normal3 S)
                = q * dot (normal3 S) (normal3 S) - dot (vsub (S 0) (T k)) (normal3 S) := by
              simp only [dot, vsub, vaddScaled]; ring
            rw [this, key]; ring
          · have : ∀ i, bary S i (vaddScaled (T k) (normal3 S) q)
                = dot (vsub (T k) (S i)) (cross (normal3 S) (sideVec S i)) := by
              intro i
              simp only [bary, dot, vsub, vaddScaled, cross]; ring
            refine forall_fin3 ?_ ?_ ?_
            · rw [this]; exact hin.1.le
            · rw [this]; exact hin.2.1.le
            · rw [this]; exact hin.2.2.le
        · intro x y hx hy
          have e : vsub (T k) (vaddScaled (T k) (normal3 S) q) = vscale (normal3 S) (-q) := by
            ext <;> simp only [vsub, vaddScaled, vscale] <;> ring
          rw [e]
          refine Real.sqrt_le_sqrt (le_of_dot ?_)
          have hx' := inS_dot hx
          have e1 : dot (vscale (normal3 S) (-q)) (vscale (normal3 S) (-q))
              = q * (q * dot (normal3 S) (normal3 S)) := by
            simp only [dot, vscale]; ring
          have e2 : dot (vsub y x) (vscale (normal3 S) (-q))
              = q * (dot (S 0) (normal3 S) - dot y (normal3 S)) := by
            rw [← hx']; simp only [dot, vscale, vsub]; ring
          rw [e1, e2, key]
          have hw' : ∀ j, dot (vsub (S 0) (T j)) (normal3 S) = dot (S 0) (normal3 S) - dot (T j) (normal3 S) :=
            fun j => vsub_dot _ _ _
          have qs : q = dot (vsub (S 0) (T k)) (normal3 S) / dot (normal3 S) (normal3 S) := hq.symm
          rcases nearest_some hk with hw | hw
          · have hq0 : 0 ≤ q := by rw [qs]; exact div_nonneg (hw k).1.le hpos.le
            refine mul_le_mul_of_nonneg_left ?_ hq0
            have := dot_inS hy (d := normal3 S) (c := dot (S 0) (normal3 S) - dot (vsub (S 0) (T k)) (normal3 S))
              (fun j => by
                have := (hw j).2
                rw [hw' j] at this
                linarith)
            linarith
          · have hq0 : q ≤ 0 := by rw [qs]; exact div_nonpos_of_nonpos_of_nonneg (hw k).1.le hpos.le
            refine mul_le_mul_of_nonpos_left ?_ hq0
            have := dot_inS_ge hy (d := normal3 S) (c := dot (S 0) (normal3 S) - dot (vsub (S 0) (T k)) (normal3 S))
              (fun j => by
                have := (hw j).2
                rw [hw' j] at this
                linarith)
            linarith
      · simp at h
  · simp at h

/-! ### A closest point inside a triangle -/

/-- Closest points, at a positive distance, with the first-order conditions. -/
structure Opt (S T : Corners) (x y : V3) : Prop where
  hx : inS S x
  hy : inS T y
  ne : vsub y x ≠ zero3
  k1 : ∀ z, inS S z → dot (vsub z x) (vsub y x) ≤ 0
  k2 : ∀ z, inS T z → 0 ≤ dot (vsub z y) (vsub y x)

theorem Opt.swap {S T : Corners} {x y : V3} (h : Opt S T x y) : Opt T S y x := by
  refine ⟨h.hy, h.hx, ?_, ?_, ?_⟩
  · intro e
    apply h.ne
    simp only [vsub, zero3, V3.mk.injEq] at e ⊢
    refine ⟨?_, ?_, ?_⟩ <;> linarith [e.1, e.2.1, e.2.2]
  · intro z hz
    have := h.k2 z hz
    have e : dot (vsub z y) (vsub x y) = -dot (vsub z y) (vsub y x) := by simp only [dot, vsub]; ring
    linarith
  · intro z hz
    have := h.k1 z hz
    have e : dot (vsub z x) (vsub x y) = -dot (vsub z x) (vsub y x) := by simp only [dot, vsub]; ring
    linarith

/-- Another pair with the same difference is as good. -/
theorem Opt.move {S T : Corners} {x y x' y' : V3} (h : Opt S T x y) (hx : inS S x') (hy : inS T y')
    (e : vsub y' x' = vsub y x) : Opt S T x' y' := by
  have a := h.k1 x' hx
  have b := h.k2 y' hy
  have e' : dot (vsub x' x) (vsub y x) = dot (vsub y' y) (vsub y x) := by
    simp only [vsub, V3.mk.injEq] at e
    obtain ⟨e1, e2, e3⟩ := e
    have f1 : x'.x - x.x = y'.x - y.x := by linarith
    have f2 : x'.y - x.y = y'.y - y.y := by linarith
    have f3 : x'.z - x.z = y'.z - y.z := by linarith
    simp only [dot, vsub, f1, f2, f3]
  refine ⟨hx, hy, by rw [e]; exact h.ne, ?_, ?_⟩
  · intro z hz
    have := h.k1 z hz
    rw [e]
    simp only [vsub_dot] at a b e' this ⊢
    linarith
  · intro z hz
    have := h.k2 z hz
    rw [e]
    simp only [vsub_dot] at a b e' this ⊢
    linarith

/-- If a closest point is inside, the difference is orthogonal to the triangle. -/
theorem Opt.perp {S T : Corners} {x y : V3} (h : Opt S T x y) (hin : inside S x) :
    ∀ i, dot (vsub (S i) x) (vsub y x) = 0 := by
  obtain ⟨u, v, w, hu, hv, hw, h1, e⟩ := h.hx
  obtain ⟨b0, b1, b2⟩ := bary_inS h1 e
  have hp := dot_self_nonneg (normal3 S)
  have i0 := hin 0
  have i1 := hin 1
  have i2 := hin 2
  rw [b0] at i0
  rw [b1] at i1
  rw [b2] at i2
  have w0 : 0 < w := by
    rcases hw.lt_or_eq with h | h
    · exact h
    · rw [← h] at i0; simp at i0
  have u0 : 0 < u := by
    rcases hu.lt_or_eq with h | h
    · exact h
    · rw [← h] at i1; simp at i1
  have v0 : 0 < v := by
    rcases hv.lt_or_eq with h | h
    · exact h
    · rw [← h] at i2; simp at i2
  have k0 := h.k1 _ (corner_inS S 0)
  have k1 := h.k1 _ (corner_inS S 1)
  have k2 := h.k1 _ (corner_inS S 2)
  have sum : u * dot (vsub (S 0) x) (vsub y x) + v * dot (vsub (S 1) x) (vsub y x)
      + w * dot (vsub (S 2) x) (vsub y x) = 0 := by
    have ex := congrArg V3.x e
    have ey := congrArg V3.y e
    have ez := congrArg V3.z e
    simp only at ex ey ez
    simp only [dot, vsub]
    linear_combination (-(y.x - x.x)) * ex - (y.y - x.y) * ey - (y.z - x.z) * ez
      - (x.x * (y.x - x.x) + x.y * (y.y - x.y) + x.z * (y.z - x.z)) * h1
  have m0 := mul_nonneg u0.le (neg_nonneg.mpr k0)
  have m1 := mul_nonneg v0.le (neg_nonneg.mpr k1)
  have m2 := mul_nonneg w0.le (neg_nonneg.mpr k2)
  refine forall_fin3 ?_ ?_ ?_
  · have : u * dot (vsub (S 0) x) (vsub y x) = 0 := by linarith
    exact (mul_eq_zero.mp this).resolve_left u0.ne'
  · have : v * dot (vsub (S 1) x) (vsub y x) = 0 := by linarith
    exact (mul_eq_zero.mp this).resolve_left v0.ne'
  · have : w * dot (vsub (S 2) x) (vsub y x) = 0 := by linarith
    exact (mul_eq_zero.mp this).resolve_left w0.ne'

/-- A vector orthogonal to two vectors is a multiple of their cross product. -/
theorem par_cross {A B V : V3} (hA : dot A V = 0) (hB : dot B V = 0) :
    vscale V (dot (cross A B) (cross A B)) = vscale (cross A B) (dot (cross A B) V) := by
  simp only [dot] at hA hB
  ext <;> simp only [vscale, dot, cross]
  · linear_combination (A.x * (B.y ^ 2 + B.z ^ 2) - B.x * (A.y * B.y + A.z * B.z)) * hA
      + (B.x * (A.y ^ 2 + A.z ^ 2) - A.x * (A.y * B.y + A.z * B.z)) * hB
  · linear_combination (A.y * (B.x ^ 2 + B.z ^ 2) - B.y * (A.x * B.x + A.z * B.z)) * hA
      + (B.y * (A.x ^ 2 + A.z ^ 2) - A.y * (A.x * B.x + A.z * B.z)) * hB
  · linear_combination (A.z * (B.x ^ 2 + B.y ^ 2) - B.z * (A.x * B.x + A.y * B.y)) * hA
      + (B.z * (A.x ^ 2 + A.y ^ 2) - A.z * (A.x * B.x + A.y * B.y)) * hB

/-- The difference is a multiple of the normal. -/
theorem Opt.par {S T : Corners} {x y : V3} (h : Opt S T x y) (hn : normal3 S ≠ zero3) (hin : inside S x) :
    ∃ c, c ≠ 0 ∧ vsub y x = vscale (normal3 S) c := by
  have hp := h.perp hin
  have h0 : dot (sideVec S 0) (vsub y x) = 0 := by
    have a := hp 0
    have b := hp 1
    rw [side0, vsub_dot]
    rw [vsub_dot] at a b
    linarith
  have h1 : dot (sideVec S 1) (vsub y x) = 0 := by
    have a := hp 1
    have b := hp 2
    rw [side1, vsub_dot]
    rw [vsub_dot] at a b
    linarith
  have hpar := par_cross h0 h1
  have hn2 : dot (normal3 S) (normal3 S) ≠ 0 := fun e => hn (dot_self_eq_zero e)
  change vscale (vsub y x) (dot (normal3 S) (normal3 S)) = vscale (normal3 S) (dot (normal3 S) (vsub y x)) at hpar
  have e : vsub y x = vscale (normal3 S) (dot (normal3 S) (vsub y x) / dot (normal3 S) (normal3 S)) := by
    have p1 := congrArg V3.x hpar
    have p2 := congrArg V3.y hpar
    have p3 := congrArg V3.z hpar
    simp only [vscale] at p1 p2 p3
    ext <;> simp only [vscale] <;> rw [mul_div_assoc', eq_div_iff hn2] <;> assumption
  refine ⟨_, ?_, e⟩
  intro hc
  apply h.ne
  rw [e, hc]
  simp [vscale, zero3]

/-- The test against the face finds closest points, or there is a nearest corner that is not above the
interior of the face. -/
theorem face_half {S T : Corners} (reg : Regular S) {x y : V3} (h : Opt S T x y) (hn : normal3 S ≠ zero3)
    (hin : inside S x) :
    (faceTest S T).2.isSome = true ∨
      ∃ k, inPlane S (vsub (T k) (vsub y x)) ∧ ¬ inside S (vsub (T k) (vsub y x)) := by
  obtain ⟨c, hc, hV⟩ := h.par hn hin
  have hnn : normal3 S = cross (sideVec S 0) (sideVec S 1) := rfl
  have hbig := reg.big hn
  have hpos : 0 < dot (normal3 S) (normal3 S) := lt_trans (by norm_num) hbig
  have hx := inS_dot h.hx
  -- heights of the corners of `T`
  have hT : ∀ j, 0 ≤ c * (dot (T j) (normal3 S) - dot y (normal3 S)) := by
    intro j
    have := h.k2 _ (corner_inS T j)
    rw [hV] at this
    have e : dot (vsub (T j) y) (vscale (normal3 S) c) = c * (dot (T j) (normal3 S) - dot y (normal3 S)) := by
      simp only [dot, vsub, vscale]; ring
    linarith
  have hyx : dot y (normal3 S) - dot (S 0) (normal3 S) = c * dot (normal3 S) (normal3 S) := by
    rw [← hx, ← vsub_dot, hV]
    simp only [dot, vscale]; ring
  have hw : ∀ j, dot (vsub (S 0) (T j)) (normal3 S) = dot (S 0) (normal3 S) - dot (T j) (normal3 S) :=
    fun j => vsub_dot _ _ _
  -- the nearest corner has the height of `y`
  obtain ⟨k, hk, hky⟩ : ∃ k, nearest (fun k => dot (vsub (S 0) (T k)) (normal3 S)) = some k ∧
      dot (T k) (normal3 S) = dot y (normal3 S) := by
    rcases lt_or_gt_of_ne hc with hneg | hpo
    · have hcn := mul_neg_of_neg_of_pos hneg hpos
      have hle : ∀ j, dot (T j) (normal3 S) ≤ dot y (normal3 S) := by
        intro j
        have := hT j
        by_contra hc'
        push Not at hc'
        have := mul_neg_of_neg_of_pos hneg (sub_pos.mpr hc')
        linarith
      obtain ⟨k, hk, hmin⟩ := nearest_pos (w := fun k => dot (vsub (S 0) (T k)) (normal3 S)) (fun j => by
        simp only [hw]
        have := hle j
        linarith)
      refine ⟨k, hk, le_antisymm (hle k) ?_⟩
      refine dot_inS h.hy (fun j => ?_)
      have := hmin j
      simp only [hw] at this
      linarith
    · have hcn := mul_pos hpo hpos
      have hle : ∀ j, dot y (normal3 S) ≤ dot (T j) (normal3 S) := by
        intro j
        have := hT j
        by_contra hc'
        push Not at hc'
        have := mul_neg_of_pos_of_neg hpo (sub_neg.mpr hc')
        linarith
      obtain ⟨k, hk, hmin⟩ := nearest_neg (w := fun k => dot (vsub (S 0) (T k)) (normal3 S)) (fun j => by
        simp only [hw]
        have := hle j
        linarith)
      refine ⟨k, hk, le_antisymm ?_ (hle k)⟩
      refine dot_inS_ge h.hy (fun j => ?_)
      have := hmin j
      simp only [hw] at this
      linarith
  have hb : ∀ i, bary S i (vsub (T k) (vsub y x)) = dot (vsub (T k) (S i)) (cross (normal3 S) (sideVec S i)) := by
    intro i
    rw [hV]
    simp only [bary, dot, vsub, vscale, cross]; ring
  by_cases hi : inside S (vsub (T k) (vsub y x))
  · left
    unfold faceTest
    simp only [← hnn]
    rw [if_pos hbig]
    simp only [hk]
    rw [if_pos ⟨by rw [← hb]; exact hi 0, by rw [← hb]; exact hi 1, by rw [← hb]; exact hi 2⟩]
    rfl
  · refine .inr ⟨k, ?_, hi⟩
    rw [inPlane]
    have : dot (vsub (vsub (T k) (vsub y x)) (S 0)) (normal3 S)
        = dot (T k) (normal3 S) - dot y (normal3 S) + (dot x (normal3 S) - dot (S 0) (normal3 S)) := by
      simp only [dot, vsub]; ring
    rw [this, hky, hx]; ring

/-- Closest points on edges of both triangles. -/
def EdgePair (S T : Corners) (V : V3) : Prop :=
  ∃ i j x' y', onEdge S i x' ∧ onEdge T j y' ∧ vsub y' x' = V

theorem fin3_cases (i k : Fin 3) : k = i ∨ k = i + 1 ∨ k = i + 2 := by
  revert i k; decide

theorem fin3_add (i : Fin 3) : i + 2 + 1 = i := by
  revert i; decide

/-- Walking along the edges of `S` from a point above the interior of `T` to a corner that is not above
it. -/
theorem walk {S T : Corners} {V g y : V3} {i : Fin 3} (hnT : normal3 T ≠ zero3) (hg : onEdge S i g)
    (hVy : vsub y g = V) (hy : inS T y) (hin : inside T y)
    (hpl : ∀ j, inPlane T (vadd (S j) V)) {k : Fin 3} (hk : ¬ inside T (vadd (S k) V)) : EdgePair S T V := by
  have hyg : y = vadd g V := by
    rw [← hVy]; ext <;> simp only [vadd, vsub] <;> ring
  obtain ⟨s, s0, s1, rfl⟩ := hg
  by_cases hi : inside T (vadd (S i) V)
  · -- along an edge between two corners
    obtain ⟨t, t0, t1, j, hj⟩ := crossing hnT (hpl i) (hpl k) hi hk
    rcases fin3_cases i k with rfl | rfl | rfl
    · exact absurd hi hk
    · refine ⟨i, j, vaddScaled (S i) (sideVec S i) t, _, ⟨t, t0, t1, rfl⟩, hj, ?_⟩
      ext <;> simp only [vsub, vaddScaled, vadd, sideVec] <;> ring
    · refine ⟨i + 2, j, vaddScaled (S (i + 2)) (sideVec S (i + 2)) (1 - t), _,
        ⟨1 - t, by linarith, by linarith, rfl⟩, hj, ?_⟩
      ext <;> simp only [vsub, vaddScaled, vadd, sideVec, fin3_add] <;> ring
  · -- along the edge itself
    obtain ⟨t, t0, t1, j, hj⟩ := crossing hnT (normal_plane T hy) (hpl i) hin hi
    refine ⟨i, j, vaddScaled (S i) (sideVec S i) (s * (1 - t)), _,
      ⟨s * (1 - t), mul_nonneg s0 (by linarith), by nlinarith, rfl⟩, hj, ?_⟩
    rw [hyg]
    ext <;> simp only [vsub, vaddScaled, vadd] <;> ring

theorem complete_half {S T : Corners} (rS : Regular S) (rT : Regular T) {x y : V3} (h : Opt S T x y)
    (hn : normal3 S ≠ zero3) (hin : inside S x) :
    EdgePair S T (vsub y x) ∨ (faceTest S T).2.isSome = true ∨ (faceTest T S).2.isSome = true := by
  rcases face_half rS h hn hin with hf | ⟨k, hpl, hk⟩
  · exact .inr (.inl hf)
  obtain ⟨t, t0, t1, i, hg⟩ := crossing hn (normal_plane S h.hx) hpl hin hk
  -- the other point of the pair
  have hy' := inS_segment h.hy (corner_inS T k) t0 t1
  generalize hgd : vaddScaled x (vsub (vsub (T k) (vsub y x)) x) t = g at *
  generalize hyd : vaddScaled y (vsub (T k) y) t = y' at *
  have hVg : vsub y' g = vsub y x := by
    rw [← hgd, ← hyd]; ext <;> simp only [vsub, vaddScaled] <;> ring
  have hopt := h.move (onEdge_inS hg) hy' hVg
  rcases edge_or_inside hy' with ⟨j, hj⟩ | ⟨hnT, hinT⟩
  · exact .inl ⟨i, j, g, y', hg, hj, hVg⟩
  · rcases face_half rT hopt.swap hnT hinT with hf | ⟨k2, -, hk2⟩
    · exact .inr (.inr hf)
    · left
      have hns : vsub (S k2) (vsub g y') = vadd (S k2) (vsub y x) := by
        rw [← hVg]; ext <;> simp only [vsub, vadd] <;> ring
      rw [hns] at hk2
      obtain ⟨c, hc, hpar⟩ := hopt.swap.par hnT hinT
      refine walk hnT hg hVg hy' hinT ?_ hk2
      intro j
      have hpj := h.perp hin j
      rw [inPlane]
      have e1 : vsub y x = vscale (normal3 T) (-c) := by
        rw [← hVg]
        have : vsub y' g = vscale (vsub g y') (-1) := by
          ext <;> simp only [vsub, vscale] <;> ring
        rw [this, hpar]
        ext <;> simp only [vscale] <;> ring
      have hgS := inS_dot (onEdge_inS hg)
      have hpg : dot (vsub (S j) g) (vsub y x) = 0 := by
        -- the point `g` has the same height as `x`
        have a := h.k1 g (onEdge_inS hg)
        have b := hopt.k1 x h.hx
        rw [hVg] at b
        rw [vsub_dot] at a b hpj ⊢
        linarith
      rw [e1] at hpg
      have hpg' : dot (vsub (S j) g) (normal3 T) = 0 := by
        have : dot (vsub (S j) g) (vscale (normal3 T) (-c)) = -c * dot (vsub (S j) g) (normal3 T) := by
          simp only [dot, vscale]; ring
        rw [this] at hpg
        exact (mul_eq_zero.mp hpg).resolve_left (neg_ne_zero.mpr hc)
      have hyT := inS_dot hy'
      have : dot (vsub (vadd (S j) (vsub y x)) (T 0)) (normal3 T)
          = dot (vsub (S j) g) (normal3 T) + (dot y' (normal3 T) - dot (T 0) (normal3 T)) := by
        rw [← hVg]
        simp only [dot, vsub, vadd]; ring
      rw [this, hpg', hyT]; ring

theorem EdgePair.swap {S T : Corners} {x y : V3} (h : EdgePair T S (vsub x y)) : EdgePair S T (vsub y x) := by
  obtain ⟨i, j, x', y', h1, h2, e⟩ := h
  refine ⟨j, i, y', x', h2, h1, ?_⟩
  simp only [vsub, V3.mk.injEq] at e ⊢
  refine ⟨?_, ?_, ?_⟩ <;> linarith [e.1, e.2.1, e.2.2]

/-- If the triangles are apart, their distance is attained at edges, or one of the tests against a face
finds it. -/
theorem complete {S T : Corners} (rS : Regular S) (rT : Regular T) {x y : V3} (h : Opt S T x y) :
    EdgePair S T (vsub y x) ∨ (faceTest S T).2.isSome = true ∨ (faceTest T S).2.isSome = true := by
  rcases edge_or_inside h.hx with ⟨i, hi⟩ | ⟨hn, hin⟩
  · rcases edge_or_inside h.hy with ⟨j, hj⟩ | ⟨hn, hin⟩
    · exact .inl ⟨i, j, x, y, hi, hj, rfl⟩
    · rcases complete_half rT rS h.swap hn hin with h1 | h1 | h1
      · exact .inl h1.swap
      · exact .inr (.inr h1)
      · exact .inr (.inl h1)
  · exact complete_half rS rT h hn hin

end Simox.Pqp
