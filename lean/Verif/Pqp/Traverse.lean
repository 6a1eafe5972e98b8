/-
The distance of bounding volumes is a lower bound, and what the traversals of two trees compute.
-/
import Verif.Pqp.RectLem2
import Verif.Pqp.Collide

namespace Simox.Pqp

/-! ### Lengths -/

theorem len3_nonneg (a : V3) : 0 ≤ len3 a := Real.sqrt_nonneg _

theorem dot_self_nonneg (a : V3) : 0 ≤ dot a a := by
  simp only [dot]
  nlinarith [mul_self_nonneg a.x, mul_self_nonneg a.y, mul_self_nonneg a.z]

theorem len3_sq (a : V3) : len3 a * len3 a = dot a a := Real.mul_self_sqrt (dot_self_nonneg a)

theorem dot_le_len (a b : V3) : dot a b ≤ len3 a * len3 b := by
  unfold len3
  rw [← Real.sqrt_mul (dot_self_nonneg a)]
  exact le_trans (le_abs_self _) (Real.abs_le_sqrt (by have := dot_sq_le a b; nlinarith))

theorem len3_add (a b : V3) : len3 (vadd a b) ≤ len3 a + len3 b := by
  have h : dot (vadd a b) (vadd a b) = dot a a + 2 * dot a b + dot b b := by
    simp only [dot, vadd]; ring
  refine Real.sqrt_le_iff.mpr ⟨add_nonneg (len3_nonneg a) (len3_nonneg b), ?_⟩
  rw [h]
  have := dot_le_len a b
  nlinarith [len3_sq a, len3_sq b]

theorem len3_neg (a b : V3) : len3 (vsub a b) = len3 (vsub b a) := by
  unfold len3
  congr 1
  simp only [dot, vsub]; ring

theorem len3_le_of_sq {a : V3} {r : ℝ} (hr : 0 ≤ r) (h : dot a a ≤ r * r) : len3 a ≤ r :=
  Real.sqrt_le_iff.mpr ⟨hr, by nlinarith⟩

/-- The distance of a point of the first object and a point of the second one, in the frame of the
first. -/
noncomputable def gap (RR : M3) (TT : V3) (p q : V3) : ℝ := len3 (vsub (mulVpV RR q TT) p)

theorem gap_nonneg (RR : M3) (TT : V3) (p q : V3) : 0 ≤ gap RR TT p q := len3_nonneg _

/-! ### Bounding volumes -/

noncomputable def relTr (RR : M3) (TT : V3) (b1 b2 : BV) : V3 :=
  tmulV b1.R (vsub (mulVpV RR b2.Tr TT) b1.Tr)

theorem relTr_child1 {RR : M3} {TT : V3} {p c b2 : BV} (hp : Orthonormal p.R) (pTo : V3) :
    tmulV (relTo p.R p.Tr pTo c).R (vsub (relTr RR TT p b2) (relTo p.R p.Tr pTo c).Tr)
      = relTr RR TT c b2 := by
  unfold relTr relTo
  simp only
  have : vsub (tmulV p.R (vsub (mulVpV RR b2.Tr TT) p.Tr)) (tmulV p.R (vsub c.Tr p.Tr))
      = tmulV p.R (vsub (mulVpV RR b2.Tr TT) c.Tr) := by
    ext <;> simp only [vsub, tmulV, dot] <;> ring
  rw [this, tmulV_tmulM hp]

theorem relTr_child2 {RR : M3} {TT : V3} {b1 p c : BV} (hp : Orthonormal p.R) (pTo : V3) :
    mulVpV (relR RR b1 p) (relTo p.R p.Tr pTo c).Tr (relTr RR TT b1 p) = relTr RR TT b1 c := by
  unfold relR relTr relTo
  simp only
  rw [← mulVpV_rel, mulV_tmulV hp]
  ext <;> simp only [vsub, vadd, mulVpV, tmulV, mulV, dot] <;> ring

theorem bvDistance_relTo {R : M3} {T : V3} (a b : M3) (c d e f : V3) (x y : BV) :
    bvDistance R T (relTo a c d x) (relTo b e f y) = bvDistance R T x y := rfl

/-- The distance of bounding volumes is at most the distance of points of triangles below. -/
theorem bvDistance_le {RR : M3} (hR : Orthonormal RR) {TT : V3} {A B : BTree} (hA : Fits A)
    (hB : Fits B) {t1 t2 : Tri} (h1 : t1 ∈ A.tris) (h2 : t2 ∈ B.tris) {p q : V3} (hp : t1.has p)
    (hq : t2.has q) :
    bvDistance (relR RR A.bv B.bv) (relTr RR TT A.bv B.bv) A.bv B.bv ≤ gap RR TT p q := by
  obtain ⟨u, v, u0, u1, v0, v1, e1⟩ := (hA.covers t1 h1 p hp).2
  obtain ⟨u', v', u0', u1', v0', v1', e2⟩ := (hB.covers t2 h2 q hq).2
  have hAo := hA.orth
  have hBo := hB.orth
  obtain ⟨r1, -, -⟩ := hA.dims
  obtain ⟨r2, -, -⟩ := hB.dims
  have hO : Orthonormal (relR RR A.bv B.bv) := hAo.tmul (hR.mul hBo)
  have hd := rectDist_le (T := relTr RR TT A.bv B.bv) hO
    (⟨u0, u1, v0, v1, u0', u1', v0', v1'⟩ : RectPts A.bv.l0 A.bv.l1 B.bv.l0 B.bv.l1 u v u' v')
  -- the rounding radii
  have l1 : len3 (vsub p (mulVpV A.bv.R ⟨u, v, 0⟩ A.bv.Tr)) ≤ A.bv.r :=
    len3_le_of_sq r1 (by rw [← dist2_eq_dot]; exact e1)
  have l2 : len3 (vsub q (mulVpV B.bv.R ⟨u', v', 0⟩ B.bv.Tr)) ≤ B.bv.r :=
    len3_le_of_sq r2 (by rw [← dist2_eq_dot]; exact e2)
  generalize hp' : mulVpV A.bv.R ⟨u, v, 0⟩ A.bv.Tr = p' at l1
  generalize hq' : mulVpV B.bv.R ⟨u', v', 0⟩ B.bv.Tr = q' at l2
  have e : len3 (rectDiff (relR RR A.bv B.bv) (relTr RR TT A.bv B.bv) u v u' v')
      = len3 (vsub (mulVpV RR q' TT) p') := by
    have : rectDiff (relR RR A.bv B.bv) (relTr RR TT A.bv B.bv) u v u' v'
        = tmulV A.bv.R (vsub (mulVpV RR q' TT) p') := by
      have h3 : (⟨u, v, 0⟩ : V3) = tmulV A.bv.R (mulV A.bv.R ⟨u, v, 0⟩) := (tmulV_mulV hAo _).symm
      unfold rectDiff
      rw [h3, ← hp', ← hq']
      unfold relR relTr
      ext <;> simp only [mulVpV, tmulM, mulM, mulV, tmulV, vsub, dot] <;> ring
    rw [this]
    unfold len3
    rw [show dot (tmulV A.bv.R (vsub (mulVpV RR q' TT) p')) (tmulV A.bv.R (vsub (mulVpV RR q' TT) p'))
      = dot (vsub (mulVpV RR q' TT) p') (vsub (mulVpV RR q' TT) p') from dot_tmulV hAo _ _]
  rw [e] at hd
  have s1 : vsub (mulVpV RR q' TT) p'
      = vadd (vadd (mulV RR (vsub q' q)) (vsub (mulVpV RR q TT) p)) (vsub p p') := by
    ext <;> simp only [mulVpV, mulV, vsub, vadd] <;> ring
  have s2 : len3 (mulV RR (vsub q' q)) = len3 (vsub q q') := by
    rw [len3_neg q q']
    unfold len3
    rw [dot_mulV hR]
  have s3 := len3_add (vadd (mulV RR (vsub q' q)) (vsub (mulVpV RR q TT) p)) (vsub p p')
  have s4 := len3_add (mulV RR (vsub q' q)) (vsub (mulVpV RR q TT) p)
  rw [← s1] at s3
  rw [s2] at s4
  have hg := gap_nonneg RR TT p q
  unfold bvDistance
  simp only
  split_ifs
  · exact hg
  · unfold gap at hg ⊢
    linarith

end Simox.Pqp
