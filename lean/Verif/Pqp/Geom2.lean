/-
Soundness of the tests: triangles or boxes with a common point pass them.
-/
import Verif.Pqp.Geom

namespace Simox.Pqp

/-! ### Projections of triangles -/

theorem le_max3 (a b c : ℝ) : a ≤ max3 a b c ∧ b ≤ max3 a b c ∧ c ≤ max3 a b c := by
  simp only [max3]
  split_ifs <;> refine ⟨?_, ?_, ?_⟩ <;> linarith

theorem min3_le (a b c : ℝ) : min3 a b c ≤ a ∧ min3 a b c ≤ b ∧ min3 a b c ≤ c := by
  simp only [min3]
  split_ifs <;> refine ⟨?_, ?_, ?_⟩ <;> linarith

theorem max3_cases (a b c : ℝ) : max3 a b c = a ∨ max3 a b c = b ∨ max3 a b c = c := by
  simp only [max3]
  split_ifs <;> simp

theorem min3_cases (a b c : ℝ) : min3 a b c = a ∨ min3 a b c = b ∨ min3 a b c = c := by
  simp only [min3]
  split_ifs <;> simp

theorem dot_inTri {a b c p : V3} (h : inTri a b c p) (ax : V3) :
    min3 (dot ax a) (dot ax b) (dot ax c) ≤ dot ax p ∧
    dot ax p ≤ max3 (dot ax a) (dot ax b) (dot ax c) := by
  obtain ⟨u, v, w, hu, hv, hw, hs, rfl⟩ := h
  obtain ⟨m1, m2, m3⟩ := min3_le (dot ax a) (dot ax b) (dot ax c)
  obtain ⟨k1, k2, k3⟩ := le_max3 (dot ax a) (dot ax b) (dot ax c)
  have e : dot ax ⟨u * a.x + v * b.x + w * c.x, u * a.y + v * b.y + w * c.y,
      u * a.z + v * b.z + w * c.z⟩ = u * dot ax a + v * dot ax b + w * dot ax c := by
    simp only [dot]; ring
  rw [e]
  have hw' : w = 1 - u - v := by linarith
  constructor
  · have a1 := mul_le_mul_of_nonneg_left m1 hu
    have a2 := mul_le_mul_of_nonneg_left m2 hv
    have a3 := mul_le_mul_of_nonneg_left m3 hw
    have : min3 (dot ax a) (dot ax b) (dot ax c)
        = u * min3 (dot ax a) (dot ax b) (dot ax c) + v * min3 (dot ax a) (dot ax b) (dot ax c)
          + w * min3 (dot ax a) (dot ax b) (dot ax c) := by rw [hw']; ring
    linarith
  · have a1 := mul_le_mul_of_nonneg_left k1 hu
    have a2 := mul_le_mul_of_nonneg_left k2 hv
    have a3 := mul_le_mul_of_nonneg_left k3 hw
    have : max3 (dot ax a) (dot ax b) (dot ax c)
        = u * max3 (dot ax a) (dot ax b) (dot ax c) + v * max3 (dot ax a) (dot ax b) (dot ax c)
          + w * max3 (dot ax a) (dot ax b) (dot ax c) := by rw [hw']; ring
    linarith

theorem project6_of_common {p1 p2 p3 q1 q2 q3 p : V3} (hp : inTri p1 p2 p3 p)
    (hq : inTri q1 q2 q3 p) (ax : V3) : project6 ax p1 p2 p3 q1 q2 q3 = true := by
  have h1 := dot_inTri hp ax
  have h2 := dot_inTri hq ax
  unfold project6
  rw [if_neg (by linarith [h1.1, h2.2]), if_neg (by linarith [h2.1, h1.2])]

theorem inTri_vsub {a b c p : V3} (h : inTri a b c p) (o : V3) :
    inTri (vsub a o) (vsub b o) (vsub c o) (vsub p o) := by
  obtain ⟨u, v, w, hu, hv, hw, hs, rfl⟩ := h
  refine ⟨u, v, w, hu, hv, hw, hs, ?_⟩
  have hw' : w = 1 - u - v := by linarith
  subst hw'
  ext <;> simp only [vsub] <;> ring

/-- Triangles with a common point pass the test. -/
theorem triContact_of_common {p1 p2 p3 q1 q2 q3 p : V3} (hp : inTri p1 p2 p3 p)
    (hq : inTri q1 q2 q3 p) : triContact p1 p2 p3 q1 q2 q3 = true := by
  have h := project6_of_common (inTri_vsub hp p1) (inTri_vsub hq p1)
  unfold triContact contactTests
  simp only [h, Bool.and_self]

theorem inTri_mulVpV {a b c p : V3} (h : inTri a b c p) (R : M3) (T : V3) :
    inTri (mulVpV R a T) (mulVpV R b T) (mulVpV R c T) (mulVpV R p T) := by
  obtain ⟨u, v, w, hu, hv, hw, hs, rfl⟩ := h
  refine ⟨u, v, w, hu, hv, hw, hs, ?_⟩
  have hw' : w = 1 - u - v := by linarith
  subst hw'
  ext <;> simp only [mulVpV] <;> ring

/-! ### Boxes -/

/-- Inside the box with half extents `d` around the origin. -/
def inBox (d v : V3) : Prop := |v.x| ≤ d.x ∧ |v.y| ≤ d.y ∧ |v.z| ≤ d.z

theorem abs_mul_le_grow {b v c : ℝ} (h : |v| ≤ b) : |c * v| ≤ b * grow c := by
  have hb : 0 ≤ b := le_trans (abs_nonneg _) h
  rw [abs_mul]
  unfold grow
  have h1 : |c| * |v| ≤ |c| * b := mul_le_mul_of_nonneg_left h (abs_nonneg _)
  nlinarith

theorem abs3 (x y z : ℝ) : |x + y + z| ≤ |x| + |y| + |z| := by
  have := abs_add_le (x + y) z
  have := abs_add_le x y
  linarith

theorem abs4 (x y z w : ℝ) : |x + y + z + w| ≤ |x| + |y| + |z| + |w| := by
  have := abs_add_le (x + y + z) w
  have := abs3 x y z
  linarith

/-- Boxes with a common point: the first around the origin, the second around `T` with axes `B`. -/
theorem obbDisjoint_of_common {B : M3} (hB : Orthonormal B) {T a b v : V3} (hv : inBox b v)
    (hx : inBox a (mulVpV B v T)) : obbDisjoint B T a b = 0 := by
  obtain ⟨s, hs, ⟨hc2, hc0, hc1⟩⟩ := hB.cross
  obtain ⟨h00, h11, h22, h01, h02, h12⟩ := hB
  have k2x := congrArg V3.x hc2
  have k2y := congrArg V3.y hc2
  have k2z := congrArg V3.z hc2
  have k0x := congrArg V3.x hc0
  have k0y := congrArg V3.y hc0
  have k0z := congrArg V3.z hc0
  have k1x := congrArg V3.x hc1
  have k1y := congrArg V3.y hc1
  have k1z := congrArg V3.z hc1
  simp only [cross, vscale] at k2x k2y k2z k0x k0y k0z k1x k1y k1z
  clear hc2 hc0 hc1
  simp only [dot] at h00 h11 h22 h01 h02 h12
  generalize hX : mulVpV B v T = X at hx
  have tx : T.x = X.x - (B.c0.x * v.x + B.c1.x * v.y + B.c2.x * v.z) := by
    rw [← hX]; simp only [mulVpV]; ring
  have ty : T.y = X.y - (B.c0.y * v.x + B.c1.y * v.y + B.c2.y * v.z) := by
    rw [← hX]; simp only [mulVpV]; ring
  have tz : T.z = X.z - (B.c0.z * v.x + B.c1.z * v.y + B.c2.z * v.z) := by
    rw [← hX]; simp only [mulVpV]; ring
  clear hX
  obtain ⟨vx, vy, vz⟩ := hv
  obtain ⟨xx, xy, xz⟩ := hx
  have sv : ∀ {w d c : ℝ}, |w| ≤ d → |s * (c * w)| ≤ d * grow c := by
    intro w d c hw
    have := abs_mul_le_grow (c := c) hw
    rcases hs with rfl | rfl
    · simpa using this
    · simpa using this
  have neg : ∀ {w d c : ℝ}, |w| ≤ d → |-(c * w)| ≤ d * grow c := by
    intro w d c hw
    rw [abs_neg]
    exact abs_mul_le_grow hw
  have nsv : ∀ {w d c : ℝ}, |w| ≤ d → |-(s * (c * w))| ≤ d * grow c := by
    intro w d c hw
    rw [abs_neg]
    exact sv hw
  -- the fifteen inequalities
  have i1 : |T.x| ≤ a.x + b.x * grow B.c0.x + b.y * grow B.c1.x + b.z * grow B.c2.x := by
    have e : T.x = X.x + -(B.c0.x * v.x) + -(B.c1.x * v.y) + -(B.c2.x * v.z) := by rw [tx]; ring
    rw [e]
    refine (abs4 _ _ _ _).trans ?_
    linarith [neg (c := B.c0.x) vx, neg (c := B.c1.x) vy, neg (c := B.c2.x) vz]
  have i3 : |T.y| ≤ a.y + b.x * grow B.c0.y + b.y * grow B.c1.y + b.z * grow B.c2.y := by
    have e : T.y = X.y + -(B.c0.y * v.x) + -(B.c1.y * v.y) + -(B.c2.y * v.z) := by rw [ty]; ring
    rw [e]
    refine (abs4 _ _ _ _).trans ?_
    linarith [neg (c := B.c0.y) vx, neg (c := B.c1.y) vy, neg (c := B.c2.y) vz]
  have i4 : |T.z| ≤ a.z + b.x * grow B.c0.z + b.y * grow B.c1.z + b.z * grow B.c2.z := by
    have e : T.z = X.z + -(B.c0.z * v.x) + -(B.c1.z * v.y) + -(B.c2.z * v.z) := by rw [tz]; ring
    rw [e]
    refine (abs4 _ _ _ _).trans ?_
    linarith [neg (c := B.c0.z) vx, neg (c := B.c1.z) vy, neg (c := B.c2.z) vz]
  have i2 : |T.x * B.c0.x + T.y * B.c0.y + T.z * B.c0.z|
      ≤ b.x + a.x * grow B.c0.x + a.y * grow B.c0.y + a.z * grow B.c0.z := by
    have e : T.x * B.c0.x + T.y * B.c0.y + T.z * B.c0.z
        = -v.x + B.c0.x * X.x + B.c0.y * X.y + B.c0.z * X.z := by
      rw [tx, ty, tz]; linear_combination (-v.x) * h00 - v.y * h01 - v.z * h02
    rw [e]
    refine (abs4 _ _ _ _).trans ?_
    rw [abs_neg]
    linarith [abs_mul_le_grow (c := B.c0.x) xx, abs_mul_le_grow (c := B.c0.y) xy,
      abs_mul_le_grow (c := B.c0.z) xz]
  have i5 : |T.x * B.c1.x + T.y * B.c1.y + T.z * B.c1.z|
      ≤ b.y + a.x * grow B.c1.x + a.y * grow B.c1.y + a.z * grow B.c1.z := by
    have e : T.x * B.c1.x + T.y * B.c1.y + T.z * B.c1.z
        = -v.y + B.c1.x * X.x + B.c1.y * X.y + B.c1.z * X.z := by
      rw [tx, ty, tz]; linear_combination (-v.x) * h01 - v.y * h11 - v.z * h12
    rw [e]
    refine (abs4 _ _ _ _).trans ?_
    rw [abs_neg]
    linarith [abs_mul_le_grow (c := B.c1.x) xx, abs_mul_le_grow (c := B.c1.y) xy,
      abs_mul_le_grow (c := B.c1.z) xz]
  have i6 : |T.x * B.c2.x + T.y * B.c2.y + T.z * B.c2.z|
      ≤ b.z + a.x * grow B.c2.x + a.y * grow B.c2.y + a.z * grow B.c2.z := by
    have e : T.x * B.c2.x + T.y * B.c2.y + T.z * B.c2.z
        = -v.z + B.c2.x * X.x + B.c2.y * X.y + B.c2.z * X.z := by
      rw [tx, ty, tz]; linear_combination (-v.x) * h02 - v.y * h12 - v.z * h22
    rw [e]
    refine (abs4 _ _ _ _).trans ?_
    rw [abs_neg]
    linarith [abs_mul_le_grow (c := B.c2.x) xx, abs_mul_le_grow (c := B.c2.y) xy,
      abs_mul_le_grow (c := B.c2.z) xz]
  have i7 : |T.z * B.c0.y - T.y * B.c0.z|
      ≤ a.y * grow B.c0.z + a.z * grow B.c0.y + b.y * grow B.c2.x + b.z * grow B.c1.x := by
    have e : T.z * B.c0.y - T.y * B.c0.z
        = -(B.c0.z * X.y) + B.c0.y * X.z + -(s * (B.c2.x * v.y)) + s * (B.c1.x * v.z) := by
      rw [ty, tz]; linear_combination (-v.y) * k2x + v.z * k1x
    rw [e]
    refine (abs4 _ _ _ _).trans ?_
    linarith [neg (c := B.c0.z) xy, abs_mul_le_grow (c := B.c0.y) xz, nsv (c := B.c2.x) vy,
      sv (c := B.c1.x) vz]
  have i8 : |T.z * B.c1.y - T.y * B.c1.z|
      ≤ a.y * grow B.c1.z + a.z * grow B.c1.y + b.x * grow B.c2.x + b.z * grow B.c0.x := by
    have e : T.z * B.c1.y - T.y * B.c1.z
        = -(B.c1.z * X.y) + B.c1.y * X.z + s * (B.c2.x * v.x) + -(s * (B.c0.x * v.z)) := by
      rw [ty, tz]; linear_combination v.x * k2x - v.z * k0x
    rw [e]
    refine (abs4 _ _ _ _).trans ?_
    linarith [neg (c := B.c1.z) xy, abs_mul_le_grow (c := B.c1.y) xz, sv (c := B.c2.x) vx,
      nsv (c := B.c0.x) vz]
  have i9 : |T.z * B.c2.y - T.y * B.c2.z|
      ≤ a.y * grow B.c2.z + a.z * grow B.c2.y + b.x * grow B.c1.x + b.y * grow B.c0.x := by
    have e : T.z * B.c2.y - T.y * B.c2.z
        = -(B.c2.z * X.y) + B.c2.y * X.z + -(s * (B.c1.x * v.x)) + s * (B.c0.x * v.y) := by
      rw [ty, tz]; linear_combination (-v.x) * k1x + v.y * k0x
    rw [e]
    refine (abs4 _ _ _ _).trans ?_
    linarith [neg (c := B.c2.z) xy, abs_mul_le_grow (c := B.c2.y) xz, nsv (c := B.c1.x) vx,
      sv (c := B.c0.x) vy]
  have i10 : |T.x * B.c0.z - T.z * B.c0.x|
      ≤ a.x * grow B.c0.z + a.z * grow B.c0.x + b.y * grow B.c2.y + b.z * grow B.c1.y := by
    have e : T.x * B.c0.z - T.z * B.c0.x
        = B.c0.z * X.x + -(B.c0.x * X.z) + -(s * (B.c2.y * v.y)) + s * (B.c1.y * v.z) := by
      rw [tx, tz]; linear_combination (-v.y) * k2y + v.z * k1y
    rw [e]
    refine (abs4 _ _ _ _).trans ?_
    linarith [abs_mul_le_grow (c := B.c0.z) xx, neg (c := B.c0.x) xz, nsv (c := B.c2.y) vy,
      sv (c := B.c1.y) vz]
  have i11 : |T.x * B.c1.z - T.z * B.c1.x|
      ≤ a.x * grow B.c1.z + a.z * grow B.c1.x + b.x * grow B.c2.y + b.z * grow B.c0.y := by
    have e : T.x * B.c1.z - T.z * B.c1.x
        = B.c1.z * X.x + -(B.c1.x * X.z) + s * (B.c2.y * v.x) + -(s * (B.c0.y * v.z)) := by
      rw [tx, tz]; linear_combination v.x * k2y - v.z * k0y
    rw [e]
    refine (abs4 _ _ _ _).trans ?_
    linarith [abs_mul_le_grow (c := B.c1.z) xx, neg (c := B.c1.x) xz, sv (c := B.c2.y) vx,
      nsv (c := B.c0.y) vz]
  have i12 : |T.x * B.c2.z - T.z * B.c2.x|
      ≤ a.x * grow B.c2.z + a.z * grow B.c2.x + b.x * grow B.c1.y + b.y * grow B.c0.y := by
    have e : T.x * B.c2.z - T.z * B.c2.x
        = B.c2.z * X.x + -(B.c2.x * X.z) + -(s * (B.c1.y * v.x)) + s * (B.c0.y * v.y) := by
      rw [tx, tz]; linear_combination (-v.x) * k1y + v.y * k0y
    rw [e]
    refine (abs4 _ _ _ _).trans ?_
    linarith [abs_mul_le_grow (c := B.c2.z) xx, neg (c := B.c2.x) xz, nsv (c := B.c1.y) vx,
      sv (c := B.c0.y) vy]
  have i13 : |T.y * B.c0.x - T.x * B.c0.y|
      ≤ a.x * grow B.c0.y + a.y * grow B.c0.x + b.y * grow B.c2.z + b.z * grow B.c1.z := by
    have e : T.y * B.c0.x - T.x * B.c0.y
        = -(B.c0.y * X.x) + B.c0.x * X.y + -(s * (B.c2.z * v.y)) + s * (B.c1.z * v.z) := by
      rw [tx, ty]; linear_combination (-v.y) * k2z + v.z * k1z
    rw [e]
    refine (abs4 _ _ _ _).trans ?_
    linarith [neg (c := B.c0.y) xx, abs_mul_le_grow (c := B.c0.x) xy, nsv (c := B.c2.z) vy,
      sv (c := B.c1.z) vz]
  have i14 : |T.y * B.c1.x - T.x * B.c1.y|
      ≤ a.x * grow B.c1.y + a.y * grow B.c1.x + b.x * grow B.c2.z + b.z * grow B.c0.z := by
    have e : T.y * B.c1.x - T.x * B.c1.y
        = -(B.c1.y * X.x) + B.c1.x * X.y + s * (B.c2.z * v.x) + -(s * (B.c0.z * v.z)) := by
      rw [tx, ty]; linear_combination v.x * k2z - v.z * k0z
    rw [e]
    refine (abs4 _ _ _ _).trans ?_
    linarith [neg (c := B.c1.y) xx, abs_mul_le_grow (c := B.c1.x) xy, sv (c := B.c2.z) vx,
      nsv (c := B.c0.z) vz]
  have i15 : |T.y * B.c2.x - T.x * B.c2.y|
      ≤ a.x * grow B.c2.y + a.y * grow B.c2.x + b.x * grow B.c1.z + b.y * grow B.c0.z := by
    have e : T.y * B.c2.x - T.x * B.c2.y
        = -(B.c2.y * X.x) + B.c2.x * X.y + -(s * (B.c1.z * v.x)) + s * (B.c0.z * v.y) := by
      rw [tx, ty]; linear_combination (-v.x) * k1z + v.y * k0z
    rw [e]
    refine (abs4 _ _ _ _).trans ?_
    linarith [neg (c := B.c2.y) xx, abs_mul_le_grow (c := B.c2.x) xy, nsv (c := B.c1.z) vx,
      sv (c := B.c0.z) vy]
  unfold obbDisjoint
  rw [if_neg (not_not.mpr i1), if_neg (not_not.mpr i2), if_neg (not_not.mpr i3),
    if_neg (not_not.mpr i4), if_neg (not_not.mpr i5), if_neg (not_not.mpr i6),
    if_neg (not_not.mpr i7), if_neg (not_not.mpr i8), if_neg (not_not.mpr i9),
    if_neg (not_not.mpr i10), if_neg (not_not.mpr i11), if_neg (not_not.mpr i12),
    if_neg (not_not.mpr i13), if_neg (not_not.mpr i14), if_neg (not_not.mpr i15)]

end Simox.Pqp
