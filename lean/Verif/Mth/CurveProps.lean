import Verif.Mth.Curve
import Verif.Mth.PoseProps
import Verif.Mth.LineProps
import Verif.Jac.Lemmas

/-!
# Curves: properties
-/

namespace Simox.Mth

open Matrix Jac Rot

/-! ## Derivatives -/

/-- A function that is `f` on the left and `g` on the right of `a`, with the same derivative there. -/
theorem glue_deriv {F f g : ℝ → V3} {d : V3} {a : ℝ} (hf : HasDerivAt f d a) (hg : HasDerivAt g d a)
    (h1 : ∀ t, a - 1 < t → t ≤ a → F t = f t) (h2 : ∀ t, a ≤ t → t < a + 1 → F t = g t) : HasDerivAt F d a := by
  have hF1 : HasDerivWithinAt F d (Set.Iic a) a := by
    apply hf.hasDerivWithinAt.congr_of_eventuallyEq
    · have hn : Set.Ioi (a - 1) ∈ nhds a := Ioi_mem_nhds (by linarith)
      filter_upwards [mem_nhdsWithin_of_mem_nhds hn, self_mem_nhdsWithin] with t ht ht'
      exact h1 t ht ht'
    · exact h1 a (by linarith) (le_refl a)
  have hF2 : HasDerivWithinAt F d (Set.Ici a) a := by
    apply hg.hasDerivWithinAt.congr_of_eventuallyEq
    · have hn : Set.Iio (a + 1) ∈ nhds a := Iio_mem_nhds (by linarith)
      filter_upwards [mem_nhdsWithin_of_mem_nhds hn, self_mem_nhdsWithin] with t ht ht'
      exact h2 t ht' ht
    · exact h2 a (le_refl a) (by linarith)
  have := hF1.union hF2
  rw [Set.Iic_union_Ici] at this
  exact hasDerivWithinAt_univ.1 this

theorem bezier_deriv (b : Bezier) (t : ℝ) : HasDerivAt b.get (b.getDerivative t) t := by
  rw [hasDerivAt_pi]
  intro i
  have h1 : HasDerivAt (fun x : ℝ => x) 1 t := hasDerivAt_id t
  have h2 : HasDerivAt (fun x : ℝ => 1 - x) (-1) t := by simpa using h1.const_sub 1
  have k0 := (((h2.mul h2).mul h2).mul_const (b.p0 i))
  have k1 := (((h1.const_mul 3).mul (h2.mul h2)).mul_const (b.p1 i))
  have k2 := ((((h1.mul h1).const_mul 3).mul h2).mul_const (b.p2 i))
  have k3 := (((h1.mul h1).mul h1).mul_const (b.p3 i))
  refine (((k0.add k1).add k2).add k3).congr_deriv ?_ |>.congr_of_eventuallyEq (Filter.Eventually.of_forall fun x => ?_)
  · simp [Bezier.getDerivative, pow2]
    ring
  · simp [Bezier.get, pow2, pow3]

theorem affine_deriv (p v : V3) (c e t : ℝ) : HasDerivAt (fun x : ℝ => p + (c * (x - e)) • v) (c • v) t := by
  rw [hasDerivAt_pi]
  intro i
  have h1 : HasDerivAt (fun x : ℝ => x - e) 1 t := (hasDerivAt_id t).sub_const e
  refine (((h1.const_mul c).mul_const (v i)).const_add (p i)).congr_deriv (by simp)

/-! ## Bezier curves -/

/-- `Bezier`: the curve starts at the first and ends at the last control point, stays in the convex hull of the
control points for t in [0,1], and `GetDerivative` is its derivative everywhere. -/
theorem C82_bezier (b : Bezier) :
    b.get 0 = b.p0 ∧ b.get 1 = b.p3 ∧
      (∀ t, 0 ≤ t → t ≤ 1 → ∃ w0 w1 w2 w3 : ℝ, 0 ≤ w0 ∧ 0 ≤ w1 ∧ 0 ≤ w2 ∧ 0 ≤ w3 ∧ w0 + w1 + w2 + w3 = 1 ∧
        b.get t = w0 • b.p0 + w1 • b.p1 + w2 • b.p2 + w3 • b.p3) ∧
      (∀ t, HasDerivAt b.get (b.getDerivative t) t) := by
  refine ⟨by simp [Bezier.get, pow2, pow3], by simp [Bezier.get, pow2, pow3], ?_, bezier_deriv b⟩
  intro t h0 h1
  have h1' : 0 ≤ 1 - t := by linarith
  refine ⟨pow3 (1 - t), 3 * t * pow2 (1 - t), 3 * pow2 t * (1 - t), pow3 t, ?_, ?_, ?_, ?_, ?_, rfl⟩
  all_goals simp only [pow2, pow3]
  · positivity
  · positivity
  · positivity
  · positivity
  · ring

/-- `CubicBezier(…, steps)`: `steps + 1` points of the curve at equal distances of the parameter, from the first to
the last control point. -/
theorem C82_bezier_points (b : Bezier) {steps : Nat} (h : 0 < steps) :
    (b.points steps).length = steps + 1 ∧ (∀ i ≤ steps, (b.points steps)[i]? = some (b.get (i / steps))) ∧
      (b.points steps).head? = some b.p0 ∧ (b.points steps).getLast? = some b.p3 := by
  have hne : (steps : ℝ) ≠ 0 := by exact_mod_cast h.ne'
  have hi : ∀ i ≤ steps, (b.points steps)[i]? = some (b.get (i / steps)) := by
    intro i hi
    rw [Bezier.points, List.getElem?_map, List.getElem?_range (by omega)]
    simp only [Option.map_some]
    rw [show (1 : ℝ) / steps * i = i / steps by ring]
  have hl : (b.points steps).length = steps + 1 := by simp [Bezier.points]
  refine ⟨hl, hi, ?_, ?_⟩
  · rw [List.head?_eq_getElem?, hi 0 (by omega)]
    simp [(C82_bezier b).1]
  · rw [List.getLast?_eq_getElem?, hl, Nat.add_sub_cancel, hi steps (le_refl _), div_self hne, (C82_bezier b).2.1]

/-- `LinearContinuedBezier`: in [0,1] it is the Bezier curve, outside a straight line; `GetDerivative` is its
derivative everywhere, at the joints too. -/
theorem C82_continued_bezier (b : Bezier) (t : ℝ) :
    HasDerivAt b.lcGet (b.lcGetDerivative t) t ∧
      (0 ≤ t → t ≤ 1 → b.lcGet t = b.get t) ∧
      (t ≤ 0 → b.lcGet t = b.p0 + t • b.lcGetDerivative 0) ∧
      (1 ≤ t → b.lcGet t = b.p3 + (t - 1) • b.lcGetDerivative 1) := by
  have hd0 : b.getDerivative 0 = (-3 : ℝ) • (b.p0 - b.p1) := by
    ext i; simp [Bezier.getDerivative, pow2]; ring
  have hd1 : b.getDerivative 1 = (3 : ℝ) • (b.p3 - b.p2) := by
    ext i; simp [Bezier.getDerivative, pow2]; ring
  have hL0 : b.lcGetDerivative 0 = (-3 : ℝ) • (b.p0 - b.p1) := by
    rw [Bezier.lcGetDerivative, if_pos (by norm_num), hd0]
  have hL1 : b.lcGetDerivative 1 = (3 : ℝ) • (b.p3 - b.p2) := by
    rw [Bezier.lcGetDerivative, if_pos (by norm_num), hd1]
  have hin : ∀ t, 0 ≤ t → t ≤ 1 → b.lcGet t = b.get t := by
    intro t h0 h1; rw [Bezier.lcGet, if_pos ⟨h0, h1⟩]
  have hlo : ∀ t, t ≤ 0 → b.lcGet t = b.p0 + ((-3 : ℝ) * (t - 0)) • (b.p0 - b.p1) := by
    intro t h0
    rcases h0.eq_or_lt with h | h
    · subst h
      rw [hin 0 (le_refl _) zero_le_one, (C82_bezier b).1]; simp
    · rw [Bezier.lcGet, if_neg (by push Not; intro h'; linarith), if_pos h]
      congr 2; ring
  have hhi : ∀ t, 1 ≤ t → b.lcGet t = b.p3 + ((3 : ℝ) * (t - 1)) • (b.p3 - b.p2) := by
    intro t h0
    rcases h0.eq_or_lt with h | h
    · subst h
      rw [hin 1 zero_le_one (le_refl _), (C82_bezier b).2.1]; simp
    · rw [Bezier.lcGet, if_neg (by push Not; intro _; linarith), if_neg (by linarith)]
  refine ⟨?_, hin t, ?_, ?_⟩
  · rcases lt_trichotomy t 0 with h | h | h
    · have hD : b.lcGetDerivative t = (-3 : ℝ) • (b.p0 - b.p1) := by
        rw [Bezier.lcGetDerivative, if_neg (by push Not; intro h'; linarith), if_pos h]
      rw [hD]
      refine (affine_deriv b.p0 (b.p0 - b.p1) (-3) 0 t).congr_of_eventuallyEq ?_
      filter_upwards [Iio_mem_nhds h] with x hx
      exact hlo x (le_of_lt hx)
    · subst h
      rw [hL0]
      refine glue_deriv (affine_deriv b.p0 (b.p0 - b.p1) (-3) 0 0) (hd0 ▸ bezier_deriv b 0) ?_ ?_
      · intro x _ hx; exact hlo x hx
      · intro x hx hx'; exact hin x hx (by linarith)
    · rcases lt_trichotomy t 1 with h1 | h1 | h1
      · have hD : b.lcGetDerivative t = b.getDerivative t := by
          rw [Bezier.lcGetDerivative, if_pos ⟨h.le, h1.le⟩]
        rw [hD]
        refine (bezier_deriv b t).congr_of_eventuallyEq ?_
        filter_upwards [Ioo_mem_nhds h h1] with x hx
        exact hin x hx.1.le hx.2.le
      · subst h1
        rw [hL1]
        refine glue_deriv (hd1 ▸ bezier_deriv b 1) (affine_deriv b.p3 (b.p3 - b.p2) 3 1 1) ?_ ?_
        · intro x hx hx'; exact hin x (by linarith) hx'
        · intro x hx _; exact hhi x hx
      · have hD : b.lcGetDerivative t = (3 : ℝ) • (b.p3 - b.p2) := by
          rw [Bezier.lcGetDerivative, if_neg (by push Not; intro _; linarith), if_neg (by linarith)]
        rw [hD]
        refine (affine_deriv b.p3 (b.p3 - b.p2) 3 1 t).congr_of_eventuallyEq ?_
        filter_upwards [Ioi_mem_nhds h1] with x hx
        exact hhi x (le_of_lt hx)
  · intro h; rw [hlo t h, hL0, smul_smul]; congr 2; ring
  · intro h; rw [hhi t h, hL1, smul_smul]; congr 2; ring

/-! ## Line strips -/

theorem getIndex_spec {minT maxT t : ℝ} (h : minT < maxT) {n k : Nat} (hk : k + 1 < n)
    (h1 : k = 0 ∨ (k : ℝ) ≤ (t - minT) / (maxT - minT) * ((n : ℤ) - 1))
    (h2 : k + 2 = n ∨ (t - minT) / (maxT - minT) * ((n : ℤ) - 1) ≤ k + 1) :
    (getIndex t minT maxT n).2 = (t - minT) / (maxT - minT) * ((n : ℤ) - 1) - (getIndex t minT maxT n).1 ∧
      ((getIndex t minT maxT n).1 = k ∨ ((getIndex t minT maxT n).1 = k + 1 ∧ k + 2 < n ∧
        (t - minT) / (maxT - minT) * ((n : ℤ) - 1) = k + 1)) := by
  rw [getIndex, if_neg h.ne]
  simp only
  generalize (t - minT) / (maxT - minT) * ((n : ℤ) - 1) = s at *
  refine ⟨trivial, ?_⟩
  rw [truncInt]
  by_cases hs : s < 0
  · rw [if_pos hs]
    have hk0 : k = 0 := by
      rcases h1 with h1 | h1
      · exact h1
      · have : (0 : ℝ) ≤ k := Nat.cast_nonneg k
        linarith
    have : ⌈s⌉ ≤ 0 := Int.ceil_le.2 (by simpa using hs.le)
    left; omega
  · rw [if_neg hs]
    push Not at hs
    have hf : (0 : ℤ) ≤ ⌊s⌋ := Int.floor_nonneg.2 hs
    have hkf : (k : ℤ) ≤ ⌊s⌋ := by
      rcases h1 with h1 | h1
      · subst h1; simpa using hf
      · exact Int.le_floor.2 (by simpa using h1)
    rcases h2 with h2 | h2
    · left; omega
    · by_cases hl : k + 2 = n
      · left; omega
      · have hfl : ⌊s⌋ ≤ (k : ℤ) + 1 := by
          have h3 := Int.floor_le s
          have : (⌊s⌋ : ℝ) ≤ ((k : ℤ) + 1 : ℤ) := by push_cast; linarith
          exact_mod_cast this
        rcases lt_or_eq_of_le hfl with h3 | h3
        · left; omega
        · right
          refine ⟨by omega, by omega, le_antisymm h2 ?_⟩
          have h4 := Int.floor_le s
          rw [h3] at h4
          push_cast at h4
          exact h4

/-- The parameter at which a strip passes its k-th point. -/
noncomputable def knot (minT maxT : ℝ) (n k : Nat) : ℝ := minT + k * ((maxT - minT) / (n - 1 : ℕ))

/-- `LineStrip::Get`, in any dimension, with at least two points: between two knots it goes straight from one
point to the next, below the first knot and above the last it goes on along the first and the last segment.
At the knots these agree, so the strip is continuous and passes all its points. -/
theorem C82_line_strip {d : Nat} {points : List (Fin d → ℝ)} {minT maxT : ℝ} (h : minT < maxT) (t : ℝ) (k : Nat)
    (hk : k + 1 < points.length)
    (h1 : k = 0 ∨ knot minT maxT points.length k ≤ t)
    (h2 : k + 2 = points.length ∨ t ≤ knot minT maxT points.length (k + 1)) :
    lineStripGet points minT maxT t = some (points[k] +
      ((t - knot minT maxT points.length k) /
        (knot minT maxT points.length (k + 1) - knot minT maxT points.length k)) • (points[k + 1] - points[k])) := by
  have hw : 0 < maxT - minT := by linarith
  have hn1 : (0 : ℝ) < ((points.length - 1 : ℕ) : ℝ) := by
    have : 0 < points.length - 1 := by omega
    exact_mod_cast this
  have hcast : (((points.length : ℤ) : ℝ) - 1) = ((points.length - 1 : ℕ) : ℝ) := by
    rw [Nat.cast_sub (by omega)]; push_cast; ring
  have hs : ∀ j : ℕ, (t - minT) / (maxT - minT) * (((points.length : ℤ) : ℝ) - 1) - j =
      (t - knot minT maxT points.length j) * (((points.length - 1 : ℕ) : ℝ) / (maxT - minT)) := by
    intro j
    rw [hcast, knot]; field_simp; ring
  have hstep : knot minT maxT points.length (k + 1) - knot minT maxT points.length k =
      (maxT - minT) / ((points.length - 1 : ℕ) : ℝ) := by
    simp only [knot]; push_cast; ring
  have hq : (t - knot minT maxT points.length k) /
      (knot minT maxT points.length (k + 1) - knot minT maxT points.length k) =
      (t - minT) / (maxT - minT) * (((points.length : ℤ) : ℝ) - 1) - k := by
    rw [hs k, hstep]; field_simp
  have hc : 0 < ((points.length - 1 : ℕ) : ℝ) / (maxT - minT) := div_pos hn1 hw
  have h1' : k = 0 ∨ (k : ℝ) ≤ (t - minT) / (maxT - minT) * (((points.length : ℤ) : ℝ) - 1) := by
    rcases h1 with h1 | h1
    · exact Or.inl h1
    · right
      have := hs k
      have h5 := mul_nonneg (sub_nonneg.2 h1) hc.le
      linarith
  have h2' : k + 2 = points.length ∨ (t - minT) / (maxT - minT) * (((points.length : ℤ) : ℝ) - 1) ≤ k + 1 := by
    rcases h2 with h2 | h2
    · exact Or.inl h2
    · right
      have := hs (k + 1)
      have h5 := mul_nonneg (sub_nonneg.2 h2) hc.le
      rw [Nat.cast_add, Nat.cast_one] at this
      linarith
  obtain ⟨g1, g2⟩ := getIndex_spec h hk h1' h2'
  rw [hq]
  simp only [lineStripGet]
  rw [g1]
  generalize (t - minT) / (maxT - minT) * (((points.length : ℤ) : ℝ) - 1) = s at *
  rcases g2 with g2 | ⟨g2, g3, g4⟩
  · rw [g2]
    simp only [Int.toNat_natCast, Int.cast_natCast]
    rw [List.getElem?_eq_getElem (by omega), List.getElem?_eq_getElem hk]
    simp only [Option.some.injEq]
    ext i; simp only [Pi.add_apply, Pi.sub_apply, Pi.smul_apply, smul_eq_mul]; ring
  · rw [g2]
    have e : ((k : ℤ) + 1).toNat = k + 1 := by omega
    rw [e, List.getElem?_eq_getElem hk, List.getElem?_eq_getElem (by omega : k + 1 + 1 < points.length)]
    simp only [Option.some.injEq]
    rw [g4]
    ext i; simp

/-- It passes the k-th point at the k-th knot; the first knot is `minT`, the last `maxT`. -/
theorem C82_line_strip_knots {d : Nat} {points : List (Fin d → ℝ)} {minT maxT : ℝ} (h : minT < maxT)
    (hn : 2 ≤ points.length) :
    (∀ k (hk : k < points.length), lineStripGet points minT maxT (knot minT maxT points.length k) = some points[k]) ∧
      knot minT maxT points.length 0 = minT ∧ knot minT maxT points.length (points.length - 1) = maxT := by
  have hn1 : ((points.length - 1 : ℕ) : ℝ) ≠ 0 := by
    have : points.length - 1 ≠ 0 := by omega
    exact_mod_cast this
  have hpos : 0 < (maxT - minT) / ((points.length - 1 : ℕ) : ℝ) :=
    div_pos (by linarith) (lt_of_le_of_ne (Nat.cast_nonneg _) (Ne.symm hn1))
  refine ⟨?_, by simp [knot], by rw [knot, mul_div_cancel₀ _ hn1]; ring⟩
  intro k hk
  by_cases hl : k + 1 < points.length
  · rw [C82_line_strip h _ k hl (Or.inr (le_refl _)) (Or.inr (by simp only [knot]; push_cast; nlinarith))]
    simp
  · obtain ⟨m, rfl⟩ : ∃ m, k = m + 1 := ⟨k - 1, by omega⟩
    rw [C82_line_strip h _ m hk (Or.inr (by simp only [knot]; push_cast; nlinarith)) (Or.inl (by omega))]
    have : knot minT maxT points.length (m + 1) - knot minT maxT points.length m ≠ 0 := by
      simp only [knot]; push_cast
      intro h0
      have : (maxT - minT) / ((points.length - 1 : ℕ) : ℝ) = 0 := by linarith
      exact hpos.ne' this
    rw [div_self this]
    simp

/-- With fewer than two points there is an exception, whatever the parameter; with `minT = maxT` the first point
is returned. -/
theorem C82_line_strip_degenerate {d : Nat} (points : List (Fin d → ℝ)) (minT maxT t : ℝ) :
    (points.length < 2 → lineStripGet points minT maxT t = none) ∧
      (∀ (hn : 2 ≤ points.length), minT = maxT → lineStripGet points minT maxT t = some points[0]) := by
  refine ⟨?_, ?_⟩
  · intro hn
    have : points[(getIndex t minT maxT points.length).1.toNat + 1]? = none := by
      rw [List.getElem?_eq_none_iff]
      omega
    simp only [lineStripGet, this]
    split <;> simp_all
  · intro hn he
    simp only [lineStripGet, getIndex, if_pos he]
    rw [List.getElem?_eq_getElem (by omega : (0 : ℤ).toNat < points.length),
      List.getElem?_eq_getElem (by simp; omega : (0 : ℤ).toNat + 1 < points.length)]
    simp

/-! ## Sampling -/

/-- `Segments` and `Sample`: `segments + 1` parameters at equal distances, from t1 to t2, and the points there. -/
theorem C82_segments (get : ℝ → V3) (t1 t2 : ℝ) {n : Nat} (h : 0 < n) :
    (segmentsOf t1 t2 n).length = n + 1 ∧
      (∀ i ≤ n, (segmentsOf t1 t2 n)[i]? = some (t1 + i * ((t2 - t1) / n))) ∧
      (segmentsOf t1 t2 n).head? = some t1 ∧ (segmentsOf t1 t2 n).getLast? = some t2 ∧
      (sample get t1 t2 n).length = n + 1 ∧
      (∀ i ≤ n, (sample get t1 t2 n)[i]? = some (get (t1 + i * ((t2 - t1) / n)))) := by
  have hne : (n : ℝ) ≠ 0 := by exact_mod_cast h.ne'
  have hi : ∀ i ≤ n, (segmentsOf t1 t2 n)[i]? = some (t1 + i * ((t2 - t1) / n)) := by
    intro i hi
    rw [segmentsOf, List.getElem?_map, List.getElem?_range (by omega)]
    simp only [Option.map_some, Option.some.injEq]
    ring
  have hl : (segmentsOf t1 t2 n).length = n + 1 := by simp [segmentsOf]
  refine ⟨hl, hi, ?_, ?_, by simp [sample, hl], ?_⟩
  · rw [List.head?_eq_getElem?, hi 0 (by omega)]; simp
  · rw [List.getLast?_eq_getElem?, hl, Nat.add_sub_cancel, hi n (le_refl _), mul_div_cancel₀ _ hne]; congr 1; ring
  · intro i hi'
    rw [sample, List.getElem?_map, hi i hi']; rfl

theorem closest_fold (get : ℝ → V3) (p : V3) (t1 t2 : ℝ) (n : Nat) : ∀ (l : List Nat) (s : ℝ × ℝ),
    s.2 = (get s.1 - p) ⬝ᵥ (get s.1 - p) →
    let r := l.foldl (closestStep get p t1 t2 n) s
    r.2 = (get r.1 - p) ⬝ᵥ (get r.1 - p) ∧ r.2 ≤ s.2 ∧
      (r.1 = s.1 ∨ ∃ i ∈ l, r.1 = t1 + (t2 - t1) * i / n) ∧
      ∀ i ∈ l, r.2 ≤ (get (t1 + (t2 - t1) * i / n) - p) ⬝ᵥ (get (t1 + (t2 - t1) * i / n) - p)
  | [], s, h => ⟨h, le_refl _, Or.inl rfl, by simp⟩
  | a :: l, s, h => by
    simp only [List.foldl_cons]
    by_cases hc : (get (t1 + (t2 - t1) * a / n) - p) ⬝ᵥ (get (t1 + (t2 - t1) * a / n) - p) < s.2
    · have e : closestStep get p t1 t2 n s a = (t1 + (t2 - t1) * a / n,
          (get (t1 + (t2 - t1) * a / n) - p) ⬝ᵥ (get (t1 + (t2 - t1) * a / n) - p)) := by
        simp only [closestStep]; rw [if_pos hc]
      rw [e]
      obtain ⟨i1, i2, i3, i4⟩ := closest_fold get p t1 t2 n l (t1 + (t2 - t1) * a / n,
          (get (t1 + (t2 - t1) * a / n) - p) ⬝ᵥ (get (t1 + (t2 - t1) * a / n) - p)) rfl
      refine ⟨i1, le_trans i2 hc.le, Or.inr ?_, ?_⟩
      · rcases i3 with i3 | ⟨j, hj, i3⟩
        · exact ⟨a, List.mem_cons_self, i3⟩
        · exact ⟨j, List.mem_cons_of_mem _ hj, i3⟩
      · intro i hi
        rcases List.mem_cons.1 hi with hi | hi
        · subst hi; exact i2
        · exact i4 i hi
    · have e : closestStep get p t1 t2 n s a = s := by
        simp only [closestStep]; rw [if_neg hc]
      rw [e]
      obtain ⟨i1, i2, i3, i4⟩ := closest_fold get p t1 t2 n l s h
      refine ⟨i1, i2, ?_, ?_⟩
      · rcases i3 with i3 | ⟨j, hj, i3⟩
        · exact Or.inl i3
        · exact Or.inr ⟨j, List.mem_cons_of_mem _ hj, i3⟩
      · intro i hi
        rcases List.mem_cons.1 hi with hi | hi
        · subst hi; push Not at hc; exact le_trans i2 hc
        · exact i4 i hi

/-- `FindClosestPoint`: the parameter returned is one of the sampled ones, and no sampled point is nearer. -/
theorem C82_find_closest (get : ℝ → V3) (p : V3) (t1 t2 : ℝ) (n : Nat) (hn : 0 < n) :
    findClosestPoint get p t1 t2 n ∈ segmentsOf t1 t2 n ∧
      ∀ t ∈ segmentsOf t1 t2 n, nrm (get (findClosestPoint get p t1 t2 n) - p) ≤ nrm (get t - p) := by
  obtain ⟨i1, i2, i3, i4⟩ := closest_fold get p t1 t2 n (List.range' 1 n) (t1, (get t1 - p) ⬝ᵥ (get t1 - p)) rfl
  have hmem : ∀ t, t ∈ segmentsOf t1 t2 n ↔ ∃ i : ℕ, i ≤ n ∧ t = t1 + (t2 - t1) * i / n := by
    intro t
    simp only [segmentsOf, List.mem_map, List.mem_range]
    constructor
    · rintro ⟨i, hi, rfl⟩; exact ⟨i, by omega, rfl⟩
    · rintro ⟨i, hi, rfl⟩; exact ⟨i, by omega, rfl⟩
  refine ⟨?_, ?_⟩
  · rw [hmem]
    rcases i3 with i3 | ⟨j, hj, i3⟩
    · exact ⟨0, by omega, by rw [findClosestPoint, i3]; simp⟩
    · have := List.mem_range'_1.1 hj
      exact ⟨j, by omega, by rw [findClosestPoint, i3]⟩
  · intro t ht
    obtain ⟨i, hi, rfl⟩ := (hmem t).1 ht
    rw [nrm_le_iff]
    rw [findClosestPoint, ← i1]
    rcases Nat.eq_zero_or_pos i with h0 | h0
    · subst h0
      simpa using i2
    · exact i4 i (List.mem_range'_1.2 ⟨h0, by omega⟩)

/-! ## Length of curves -/

theorem nrm_triangle (a b : V3) : nrm (a + b) ≤ nrm a + nrm b := by
  have ha := nrm_nonneg a
  have hb := nrm_nonneg b
  have h := lagrange a b
  have hab : a ⬝ᵥ b ≤ nrm a * nrm b := by
    apply le_of_sq_le_sq _ (mul_nonneg ha hb)
    have h1 := nrm_mul_self a
    have h2 := nrm_mul_self b
    have h3 := dot_nonneg (a ⨯₃ b)
    nlinarith
  apply le_of_sq_le_sq _ (add_nonneg ha hb)
  have h1 := nrm_mul_self a
  have h2 := nrm_mul_self b
  have h3 := nrm_mul_self (a + b)
  have h4 : (a + b) ⬝ᵥ (a + b) = a ⬝ᵥ a + 2 * (a ⬝ᵥ b) + b ⬝ᵥ b := by
    rw [add_dotProduct, dotProduct_add, dotProduct_add, dotProduct_comm b a]; ring
  nlinarith

theorem nrm_smul (k : ℝ) (a : V3) : nrm (k • a) = |k| * nrm a := by
  simp only [nrm, smul_dotProduct, dotProduct_smul, smul_eq_mul]
  rw [← mul_assoc, Real.sqrt_mul (mul_self_nonneg k), Real.sqrt_mul_self_eq_abs]

theorem length_fold (get : ℝ → V3) (t1 t2 : ℝ) (n : Nat) : ∀ m : Nat,
    (List.range' 1 m).foldl (lengthStep get t1 t2 n) (get t1, 0) =
      (get (t1 + (t2 - t1) / n * m), ∑ i ∈ Finset.range m,
        nrm (get (t1 + (t2 - t1) / n * ((i + 1 : ℕ) : ℝ)) - get (t1 + (t2 - t1) / n * i)))
  | 0 => by simp
  | m + 1 => by
    rw [List.range'_concat, List.foldl_append, length_fold get t1 t2 n m, Finset.sum_range_succ]
    simp only [List.foldl_cons, List.foldl_nil, lengthStep]
    rw [Nat.one_mul, add_comm 1 m]

/-- `GetLength`: the length of the polygon through the sampled points. It is never less than the distance of the
end points, and exact for straight lines. -/
theorem C82_length (get : ℝ → V3) (t1 t2 : ℝ) {n : Nat} (hn : 0 < n) :
    getLength get t1 t2 n = ∑ i ∈ Finset.range n,
        nrm (get (t1 + ((i + 1 : ℕ) : ℝ) * ((t2 - t1) / n)) - get (t1 + i * ((t2 - t1) / n))) ∧
      nrm (get t2 - get t1) ≤ getLength get t1 t2 n ∧
      (∀ l : Line, getLength l.get t1 t2 n = nrm (l.get t2 - l.get t1)) := by
  have hne : (n : ℝ) ≠ 0 := by exact_mod_cast hn.ne'
  have key : ∀ get : ℝ → V3, getLength get t1 t2 n = ∑ i ∈ Finset.range n,
        nrm (get (t1 + ((i + 1 : ℕ) : ℝ) * ((t2 - t1) / n)) - get (t1 + i * ((t2 - t1) / n))) := by
    intro get
    rw [getLength, length_fold]
    simp only
    apply Finset.sum_congr rfl
    intro i _
    rw [mul_comm ((t2 - t1) / (n : ℝ)), mul_comm ((t2 - t1) / (n : ℝ))]
  have hend : t1 + n * ((t2 - t1) / n) = t2 := by rw [mul_div_cancel₀ _ hne]; ring
  refine ⟨key get, ?_, ?_⟩
  · rw [key get]
    have : ∀ m : ℕ, nrm (get (t1 + m * ((t2 - t1) / n)) - get t1) ≤ ∑ i ∈ Finset.range m,
        nrm (get (t1 + ((i + 1 : ℕ) : ℝ) * ((t2 - t1) / n)) - get (t1 + i * ((t2 - t1) / n))) := by
      intro m
      induction m with
      | zero => simp [nrm]
      | succ m ih =>
        rw [Finset.sum_range_succ]
        have := nrm_triangle (get (t1 + ((m + 1 : ℕ) : ℝ) * ((t2 - t1) / n)) - get (t1 + m * ((t2 - t1) / n)))
          (get (t1 + m * ((t2 - t1) / n)) - get t1)
        rw [sub_add_sub_cancel] at this
        linarith
    have h := this n
    rw [hend] at h
    exact h
  · intro l
    rw [key]
    have hterm : ∀ i ∈ Finset.range n, nrm (l.get (t1 + ((i + 1 : ℕ) : ℝ) * ((t2 - t1) / n)) -
        l.get (t1 + i * ((t2 - t1) / n))) = |t2 - t1| * nrm l.dir / n := by
      intro i _
      have : l.get (t1 + ((i + 1 : ℕ) : ℝ) * ((t2 - t1) / n)) - l.get (t1 + i * ((t2 - t1) / n)) =
          ((t2 - t1) / n) • l.dir := by
        ext j; simp only [Line.get, Pi.add_apply, Pi.sub_apply, Pi.smul_apply, smul_eq_mul]; push_cast; ring
      rw [this, nrm_smul, abs_div, Nat.abs_cast]; ring
    rw [Finset.sum_congr rfl hterm, Finset.sum_const, Finset.card_range, nsmul_eq_mul, mul_div_cancel₀ _ hne]
    have : l.get t2 - l.get t1 = (t2 - t1) • l.dir := by
      ext j; simp only [Line.get, Pi.add_apply, Pi.sub_apply, Pi.smul_apply, smul_eq_mul]; ring
    rw [this, nrm_smul]

theorem moveLoop_line (d : V3) (dl : ℝ) : ∀ (n : Nat) (x : ℝ),
    moveLoop (fun _ => d) dl n x = x + n * (dl / Real.sqrt (1 + nrm d * nrm d))
  | 0, x => by simp [moveLoop]
  | n + 1, x => by
    rw [moveLoop, moveLoop_line d dl n]; push_cast; ring

/-- `MoveLengthOnCurve` does not move by the length given: on a line with unit direction, moving by 1 covers
1/√2 of it. -/
theorem C82_move_false :
    ∃ l : Line, l.dir ⬝ᵥ l.dir = 1 ∧
      getLength l.get 0 (moveLengthOnCurve (fun _ => l.dir) 0 1 1) 1 = 1 / Real.sqrt 2 ∧ 1 / Real.sqrt 2 < (1 : ℝ) := by
  refine ⟨⟨0, ![1, 0, 0]⟩, by simp, ?_, ?_⟩
  · rw [(C82_length (Line.get ⟨0, ![1, 0, 0]⟩) 0 _ one_pos).2.2]
    have hn : nrm ![1, 0, 0] = 1 := by simp [nrm]
    rw [moveLengthOnCurve, moveLoop_line, hn]
    simp only [Line.get]
    rw [zero_add, zero_smul, add_zero, sub_zero, nrm_smul, hn]
    norm_num
  · rw [div_lt_one (Real.sqrt_pos.2 (by norm_num))]
    exact Real.lt_sqrt_of_sq_lt (by norm_num)

/-- What holds for lines: the length given is that of the graph (t, point), time included. -/
theorem C82_move_partial (l : Line) (x len : ℝ) {n : Nat} (hn : 0 < n) :
    let y := moveLengthOnCurve (fun _ => l.dir) x len n
    (y - x) ^ 2 + nrm (l.get y - l.get x) ^ 2 = len ^ 2 ∧ (0 ≤ len → x ≤ y) := by
  intro y
  have hne : (n : ℝ) ≠ 0 := by exact_mod_cast hn.ne'
  have hpos : 0 < 1 + nrm l.dir * nrm l.dir := by nlinarith [mul_self_nonneg (nrm l.dir)]
  have hsq := Real.mul_self_sqrt hpos.le
  have hs := Real.sqrt_pos.2 hpos
  have hy : y = x + len / Real.sqrt (1 + nrm l.dir * nrm l.dir) := by
    simp only [y, moveLengthOnCurve, moveLoop_line]
    field_simp
  have hyx : y - x = len / Real.sqrt (1 + nrm l.dir * nrm l.dir) := by rw [hy]; ring
  have hg : l.get y - l.get x = (y - x) • l.dir := by
    ext j; simp only [Line.get, Pi.add_apply, Pi.sub_apply, Pi.smul_apply, smul_eq_mul]; ring
  refine ⟨?_, ?_⟩
  · rw [hg, nrm_smul, mul_pow, sq_abs, hyx]
    generalize Real.sqrt (1 + nrm l.dir * nrm l.dir) = s at *
    field_simp
    linear_combination (-len ^ 2) * hsq
  · intro h
    have : 0 ≤ y - x := by rw [hyx]; positivity
    linarith

/-! ## Ranges -/

/-- `FloatRange`: `steps + 1` numbers at equal distances from start to end. -/
theorem C82_float_range (a b : ℝ) {n : Nat} (hn : 0 < n) :
    (floatRange a b n).length = n + 1 ∧ (∀ i ≤ n, (floatRange a b n)[i]? = some (a + i * ((b - a) / n))) ∧
      (floatRange a b n).head? = some a ∧ (floatRange a b n).getLast? = some b := by
  have hne : (n : ℝ) ≠ 0 := by exact_mod_cast hn.ne'
  have hi : ∀ i ≤ n, (floatRange a b n)[i]? = some (a + i * ((b - a) / n)) := by
    intro i hi
    rw [floatRange, List.getElem?_map, List.getElem?_range (by omega)]
    simp only [Option.map_some, Option.some.injEq, lerp]
    field_simp; ring
  have hl : (floatRange a b n).length = n + 1 := by simp [floatRange]
  refine ⟨hl, hi, ?_, ?_⟩
  · rw [List.head?_eq_getElem?, hi 0 (by omega)]; simp
  · rw [List.getLast?_eq_getElem?, hl, Nat.add_sub_cancel, hi n (le_refl _), mul_div_cancel₀ _ hne]; congr 1; ring

/-- `VectorRange`: exactly the vectors with coordinates from the three lists. -/
theorem C82_vector_range (xs ys zs : List ℝ) (v : V3) :
    (v ∈ vectorRange xs ys zs ↔ v 0 ∈ xs ∧ v 1 ∈ ys ∧ v 2 ∈ zs) ∧
      (vectorRange xs ys zs).length = xs.length * ys.length * zs.length := by
  refine ⟨?_, ?_⟩
  · simp only [vectorRange, List.mem_flatMap, List.mem_map]
    constructor
    · rintro ⟨x, hx, y, hy, z, hz, rfl⟩; exact ⟨hx, hy, hz⟩
    · rintro ⟨hx, hy, hz⟩
      refine ⟨_, hx, _, hy, _, hz, ?_⟩
      ext i; fin_cases i <;> rfl
  · simp [vectorRange, List.length_flatMap, mul_assoc]

theorem foldl_add (l : List V3) : ∀ a : V3, l.foldl (· + ·) a = a + l.sum := by
  induction l with
  | nil => intro a; simp
  | cons x l ih => intro a; rw [List.foldl_cons, ih, List.sum_cons, add_assoc]

/-- `Average`: 0 for the empty list, otherwise the point from which the differences add up to zero. -/
theorem C82_average (l : List V3) :
    (l = [] → average l = 0) ∧ (l ≠ [] → (l.map (· - average l)).sum = 0 ∧
      ∀ c, (l.map (· - c)).sum = 0 → c = average l) := by
  have hsum : ∀ (l : List V3) c, (l.map (· - c)).sum = l.sum - (l.length : ℝ) • c := by
    intro l c
    induction l with
    | nil => simp
    | cons x l ih =>
      rw [List.map_cons, List.sum_cons, ih, List.sum_cons, List.length_cons]
      ext i; simp; ring
  refine ⟨by rintro rfl; simp [average], ?_⟩
  intro h
  have hl : l.length ≠ 0 := by simpa using h
  have hne : (l.length : ℝ) ≠ 0 := by exact_mod_cast hl
  have hav : average l = (1 / (l.length : ℝ)) • l.sum := by
    rw [average, if_neg hl, foldl_add, zero_add]
  refine ⟨?_, ?_⟩
  · rw [hsum, hav, smul_smul, mul_one_div_cancel hne, one_smul, sub_self]
  · intro c hc
    rw [hsum, sub_eq_zero] at hc
    rw [hav, hc, smul_smul, one_div, inv_mul_cancel₀ hne, one_smul]

/-! ## Composed functions -/

/-- `CompositeFunctionR1R6`: the position function runs from 0 to 1 while the time runs from start to end, and if
`deriv` is its derivative, so is `GetPositionDerivative` that of `GetPosition`. -/
theorem C82_composite (get deriv : ℝ → V3) {startT endT : ℝ} (h : startT ≠ endT)
    (hd : ∀ t, HasDerivAt get (deriv t) t) (t : ℝ) :
    compositePosition get startT endT startT = get 0 ∧ compositePosition get startT endT endT = get 1 ∧
      HasDerivAt (compositePosition get startT endT) (compositePositionDerivative deriv startT endT t) t := by
  have hne : endT - startT ≠ 0 := sub_ne_zero.2 (Ne.symm h)
  refine ⟨by simp [compositePosition, iLerp], by simp [compositePosition, iLerp, div_self hne], ?_⟩
  have h1 : HasDerivAt (fun x => iLerp startT endT x) (1 / (endT - startT)) t :=
    ((hasDerivAt_id t).sub_const startT).div_const (endT - startT)
  exact (hd (iLerp startT endT t)).scomp t h1

/-- `TransformedFunctionR1R3`: the derivative of the transformed curve is the transformed derivative. -/
theorem C82_transformed (get deriv : ℝ → V3) {pose : M4} (hp : IsPose pose)
    (hd : ∀ t, HasDerivAt get (deriv t) t) (t : ℝ) :
    HasDerivAt (fun x => transformPosition pose (get x)) (transformDirection pose (deriv t)) t := by
  obtain ⟨p, r, hr, rfl⟩ := pose_cases hp
  simp only [transformPosition_mkPose, transformDirection, orientation_mkPose]
  exact (smul_deriv ⟨r, hr⟩ (hd t)).add_const p

/-- The hypotheses are met: a strip of three points in the plane, passing the second one at 5. -/
example : lineStripGet [![0, 0], ![1, 2], ![3, 3]] 0 10 5 = some (![1, 2] : Fin 2 → ℝ) := by
  have h := (C82_line_strip_knots (points := ([![0, 0], ![1, 2], ![3, 3]] : List (Fin 2 → ℝ))) (minT := 0) (maxT := 10)
    (by norm_num) (by simp)).1 1 (by simp)
  have hk : knot 0 10 ([![0, 0], ![1, 2], ![3, 3]] : List (Fin 2 → ℝ)).length 1 = 5 := by
    simp [knot]; norm_num
  rw [hk] at h
  exact h

end Simox.Mth
