/-
The loop over edge pairs, and the whole test of two triangles.
-/
import Verif.Pqp.TriExact

namespace Simox.Pqp

theorem forall_rot {p : Fin 3 → Prop} (i : Fin 3) (h0 : p i) (h1 : p (i + 1)) (h2 : p (i + 2)) : ∀ k, p k := by
  intro k
  rcases fin3_cases i k with rfl | rfl | rfl <;> assumption

/-- Points at a lower bound of all distances. -/
structure Found (S T : Corners) (r : TriRes) : Prop where
  p : inS S r.p
  q : inS T r.q
  d : r.d = len3 (vsub r.q r.p)
  low : ∀ x y, inS S x → inS T y → r.d ≤ len3 (vsub y x)

/-- What is known in the loop; `m` is a lower bound for squared distances. -/
structure EInv (S T : Corners) (m : ℝ) (st : EdgeSt) : Prop where
  le : m ≤ st.mindd
  apart : st.shown = true → Apart S T
  P : inS S st.P
  Q : inS T st.Q

/-- Bounds in the direction of the difference, for the points of a triangle from its edge. -/
theorem edge_bound {S : Corners} {i : Fin 3} {A V X : V3} (hA : A = sideVec S i) {t : ℝ}
    (hX : X = vaddScaled (S i) A t)
    (opt : ∀ s, 0 ≤ s → s ≤ 1 → (s - t) * dot A V ≤ 0) {m : ℝ} (hm : 0 ≤ m)
    (h2 : dot (vsub (S (i + 2)) X) V ≤ m) : ∀ z, inS S z → dot (vsub z X) V ≤ m := by
  intro z hz
  have e0 : dot (vsub (S i) X) V = (0 - t) * dot A V := by
    rw [hX]; simp only [dot, vsub, vaddScaled]; ring
  have e1 : dot (vsub (S (i + 1)) X) V = (1 - t) * dot A V := by
    rw [hX, hA]; simp only [dot, vsub, vaddScaled, sideVec]; ring
  have o0 := opt 0 (le_refl _) zero_le_one
  have o1 := opt 1 zero_le_one (le_refl _)
  rw [vsub_dot]
  have := dot_inS hz (d := V) (c := m + dot X V) (forall_rot i
    (by rw [vsub_dot] at e0; linarith) (by rw [vsub_dot] at e1; linarith)
    (by rw [vsub_dot] at h2; linarith))
  linarith

/-- Everything about one pair of edges. -/
theorem pair_spec (S T : Corners) (i j : Fin 3) :
    ∃ r, r = segPoints (S i) (sideVec S i) (T j) (sideVec T j) ∧ onEdge S i r.x ∧ onEdge T j r.y ∧
      Along r.vec (vsub r.y r.x) ∧
      (∀ m, 0 ≤ m → dot (vsub (S (i + 2)) r.x) r.vec ≤ m → vsub r.y r.x ≠ zero3 →
        ∀ z, inS S z → dot (vsub z r.x) r.vec ≤ m) ∧
      (∀ m, m ≤ 0 → m ≤ dot (vsub (T (j + 2)) r.y) r.vec → vsub r.y r.x ≠ zero3 →
        ∀ z, inS T z → m ≤ dot (vsub z r.y) r.vec) ∧
      (∀ x' y', onEdge S i x' → onEdge T j y' →
        dot (vsub r.y r.x) (vsub r.y r.x) ≤ dot (vsub y' x') (vsub y' x')) := by
  obtain ⟨t, u, hm, hx, hy, hal⟩ := segPoints_spec (S i) (sideVec S i) (T j) (sideVec T j)
  refine ⟨_, rfl, ⟨t, hm.t0, hm.t1, hx⟩, ⟨u, hm.u0, hm.u1, hy⟩, ?_⟩
  generalize segPoints (S i) (sideVec S i) (T j) (sideVec T j) = r at *
  have hV : segV (S i) (sideVec S i) (T j) (sideVec T j) t u = vsub r.y r.x := by
    rw [hx, hy]; rfl
  have oT := hm.optT
  have oU := hm.optU
  rw [hV] at hal oT oU
  refine ⟨hal, ?_, ?_, ?_⟩
  · intro m h0 h2 hne
    obtain ⟨c, hc, hvec⟩ := hal.resolve_left hne
    refine edge_bound (i := i) rfl hx ?_ h0 h2
    intro s s0 s1
    have := mul_le_mul_of_nonneg_left (oT s s0 s1) hc.le
    rw [hvec]
    have e : dot (sideVec S i) (vscale (vsub r.y r.x) c) = c * dot (sideVec S i) (vsub r.y r.x) := by
      simp only [dot, vscale]; ring
    rw [e]; nlinarith
  · intro m h0 h2 hne z hz
    obtain ⟨c, hc, hvec⟩ := hal.resolve_left hne
    have := edge_bound (S := T) (i := j) (V := vscale r.vec (-1)) (m := -m) rfl hy ?_ (by linarith) ?_ z hz
    · have e : dot (vsub z r.y) (vscale r.vec (-1)) = -dot (vsub z r.y) r.vec := by
        simp only [dot, vscale]; ring
      linarith
    · intro s s0 s1
      have := mul_le_mul_of_nonneg_left (oU s s0 s1) hc.le
      rw [hvec]
      have e : dot (sideVec T j) (vscale (vscale (vsub r.y r.x) c) (-1))
          = -(c * dot (sideVec T j) (vsub r.y r.x)) := by
        simp only [dot, vscale]; ring
      rw [e]; nlinarith
    · have e : dot (vsub (T (j + 2)) r.y) (vscale r.vec (-1)) = -dot (vsub (T (j + 2)) r.y) r.vec := by
        simp only [dot, vscale]; ring
      linarith
  · rintro x' y' ⟨s, s0, s1, rfl⟩ ⟨s', s0', s1', rfl⟩
    refine le_of_dot ?_
    have a := oT s s0 s1
    have b := oU s' s0' s1'
    have e : dot (vsub (vaddScaled (T j) (sideVec T j) s') (vaddScaled (S i) (sideVec S i) s)) (vsub r.y r.x)
        = dot (vsub r.y r.x) (vsub r.y r.x) + (s' - u) * dot (sideVec T j) (vsub r.y r.x)
          - (s - t) * dot (sideVec S i) (vsub r.y r.x) := by
      have h1 : vsub (vaddScaled (T j) (sideVec T j) s') (vaddScaled (S i) (sideVec S i) s)
          = vadd (vsub r.y r.x) (vsub (vscale (sideVec T j) (s' - u)) (vscale (sideVec S i) (s - t))) := by
        rw [hx, hy]; ext <;> simp only [vsub, vaddScaled, vadd, vscale] <;> ring
      rw [h1]
      simp only [dot, vadd, vscale, vsub]; ring
    linarith

theorem edgeStep_spec {S T : Corners} {m : ℝ}
    (hm : ∀ x y, inS S x → inS T y → m ≤ dot (vsub y x) (vsub y x)) {st : EdgeSt} (h : EInv S T m st)
    (i j : Fin 3) :
    (∃ r, edgeStep S T i j st = .inl r ∧ Found S T r) ∨
    (∃ st', edgeStep S T i j st = .inr st' ∧ EInv S T m st' ∧
      ∀ x' y', onEdge S i x' → onEdge T j y' → dot (vsub y' x') (vsub y' x') = m → m ≤ 0) := by
  obtain ⟨r, hr, ex, ey, hal, bS, bT, hmin⟩ := pair_spec S T i j
  have hx := onEdge_inS ex
  have hy := onEdge_inS ey
  unfold edgeStep
  rw [← hr]
  simp only
  have hdd := hm _ _ hx hy
  have hself : dot (vsub r.y r.x) (vsub r.y r.x) = 0 → vsub r.y r.x = zero3 := dot_self_eq_zero
  by_cases h1 : dot (vsub r.y r.x) (vsub r.y r.x) ≤ st.mindd
  · rw [if_pos h1]
    by_cases h2 : dot (vsub (S (i + 2)) r.x) r.vec ≤ 0 ∧ dot (vsub (T (j + 2)) r.y) r.vec ≥ 0
    · rw [if_pos h2]
      refine .inl ⟨_, rfl, hx, hy, rfl, ?_⟩
      intro x y hx' hy'
      refine Real.sqrt_le_sqrt ?_
      rcases hal with h0 | ⟨c, hc, hvec⟩
      · rw [h0]
        have := dot_self_nonneg (vsub y x)
        simpa [dot, zero3] using this
      · by_cases hne : vsub r.y r.x = zero3
        · rw [hne]
          have := dot_self_nonneg (vsub y x)
          simpa [dot, zero3] using this
        have b1 := bS 0 (le_refl _) h2.1 hne
        have b2 := bT 0 (le_refl _) h2.2 hne
        refine closest_of_dot ?_ ?_ x y hx' hy'
        · intro z hz
          have := b1 z hz
          rw [hvec] at this
          have e : dot (vsub z r.x) (vscale (vsub r.y r.x) c) = c * dot (vsub z r.x) (vsub r.y r.x) := by
            simp only [dot, vscale]; ring
          rw [e] at this
          by_contra hn
          have := mul_pos hc (not_le.mp hn)
          linarith
        · intro z hz
          have := b2 z hz
          rw [hvec] at this
          have e : dot (vsub z r.y) (vscale (vsub r.y r.x) c) = c * dot (vsub z r.y) (vsub r.y r.x) := by
            simp only [dot, vscale]; ring
          rw [e] at this
          by_contra hn
          have := mul_neg_of_pos_of_neg hc (not_le.mp hn)
          linarith
    · rw [if_neg h2]
      refine .inr ⟨_, rfl, ⟨hdd, ?_, hx, hy⟩, ?_⟩
      · simp only
        have a0 : 0 ≤ (if dot (vsub (S (i + 2)) r.x) r.vec < 0 then 0
            else dot (vsub (S (i + 2)) r.x) r.vec) := by split_ifs <;> linarith
        have a1 : dot (vsub (S (i + 2)) r.x) r.vec ≤ (if dot (vsub (S (i + 2)) r.x) r.vec < 0 then 0
            else dot (vsub (S (i + 2)) r.x) r.vec) := by split_ifs <;> linarith
        have b0 : (if dot (vsub (T (j + 2)) r.y) r.vec > 0 then 0
            else dot (vsub (T (j + 2)) r.y) r.vec) ≤ 0 := by split_ifs <;> linarith
        have b1 : (if dot (vsub (T (j + 2)) r.y) r.vec > 0 then 0
            else dot (vsub (T (j + 2)) r.y) r.vec) ≤ dot (vsub (T (j + 2)) r.y) r.vec := by
          split_ifs <;> linarith
        generalize (if dot (vsub (S (i + 2)) r.x) r.vec < 0 then 0
            else dot (vsub (S (i + 2)) r.x) r.vec) = a' at *
        generalize (if dot (vsub (T (j + 2)) r.y) r.vec > 0 then 0
            else dot (vsub (T (j + 2)) r.y) r.vec) = b' at *
        split_ifs with hs
        · intro _ z hzS hzT
          by_cases hne : vsub r.y r.x = zero3
          · rw [hne] at hs
            have e : dot zero3 r.vec = 0 := by simp [dot, zero3]
            rw [e] at hs
            linarith
          · have c1 := bS a' a0 a1 hne z hzS
            have c2 := bT b' b0 b1 hne z hzT
            have e : dot (vsub r.y r.x) r.vec = dot (vsub z r.x) r.vec - dot (vsub z r.y) r.vec := by
              simp only [dot, vsub]; ring
            linarith
        · exact h.apart
      · intro x' y' hx' hy' he
        by_contra hpos
        push Not at hpos
        have hle := hmin x' y' hx' hy'
        have heq : dot (vsub r.y r.x) (vsub r.y r.x) = m := le_antisymm (by linarith) hdd
        have hne : vsub r.y r.x ≠ zero3 := by
          intro h0
          rw [h0] at heq
          simp [dot, zero3] at heq
          linarith
        obtain ⟨c, hc, hvec⟩ := hal.resolve_left hne
        obtain ⟨k1, k2⟩ := closest_dot hx hy (fun x'' y'' hx'' hy'' => by
          rw [heq]; exact hm _ _ hx'' hy'')
        apply h2
        constructor
        · have := mul_le_mul_of_nonneg_left (k1 _ (corner_inS S (i + 2))) hc.le
          rw [hvec]
          have e : dot (vsub (S (i + 2)) r.x) (vscale (vsub r.y r.x) c)
              = c * dot (vsub (S (i + 2)) r.x) (vsub r.y r.x) := by
            simp only [dot, vscale]; ring
          linarith
        · have := mul_nonneg hc.le (k2 _ (corner_inS T (j + 2)))
          rw [hvec]
          have e : dot (vsub (T (j + 2)) r.y) (vscale (vsub r.y r.x) c)
              = c * dot (vsub (T (j + 2)) r.y) (vsub r.y r.x) := by
            simp only [dot, vscale]; ring
          linarith
  · rw [if_neg h1]
    refine .inr ⟨_, rfl, ⟨h.le, h.apart, hx, hy⟩, ?_⟩
    intro x' y' hx' hy' he
    have hle := hmin x' y' hx' hy'
    have := h.le
    exfalso
    linarith

theorem edgeLoop_spec {S T : Corners} {m : ℝ}
    (hm : ∀ x y, inS S x → inS T y → m ≤ dot (vsub y x) (vsub y x)) (l : List (Fin 3 × Fin 3)) :
    ∀ st : EdgeSt, EInv S T m st →
    (∃ r, edgeLoop S T l st = .inl r ∧ Found S T r) ∨
    (∃ st', edgeLoop S T l st = .inr st' ∧ EInv S T m st' ∧ ∀ ij ∈ l,
      ∀ x' y', onEdge S ij.1 x' → onEdge T ij.2 y' → dot (vsub y' x') (vsub y' x') = m → m ≤ 0) := by
  induction l with
  | nil => intro st h; exact .inr ⟨st, rfl, h, by simp⟩
  | cons ij l ih =>
    intro st h
    obtain ⟨i, j⟩ := ij
    rcases edgeStep_spec hm h i j with ⟨r, e, hr⟩ | ⟨st', e, h', hno⟩
    · left
      refine ⟨r, ?_, hr⟩
      simp only [edgeLoop, e]
    · rcases ih st' h' with ⟨r, e', hr⟩ | ⟨st'', e', h'', hno'⟩
      · left
        refine ⟨r, ?_, hr⟩
        simp only [edgeLoop, e, e']
      · right
        refine ⟨st'', by simp only [edgeLoop, e, e'], h'', ?_⟩
        intro ij hij
        rcases List.mem_cons.mp hij with rfl | hij
        · exact hno
        · exact hno' ij hij

theorem mem_edgePairs (i j : Fin 3) : (i, j) ∈ edgePairs := by
  revert i j; decide

/-- The answer for two triangles: points of them, at the distance unless it is 0; the distance is a lower
bound and attained. -/
structure TriOk (S T : Corners) (r : TriRes) : Prop where
  p : inS S r.p
  q : inS T r.q
  low : ∀ x y, inS S x → inS T y → r.d ≤ len3 (vsub y x)
  att : ∃ x y, inS S x ∧ inS T y ∧ r.d = len3 (vsub y x)
  d : r.d = len3 (vsub r.q r.p) ∨ r.d = 0

theorem Found.ok {S T : Corners} {r : TriRes} (h : Found S T r) : TriOk S T r :=
  ⟨h.p, h.q, h.low, ⟨_, _, h.p, h.q, h.d⟩, .inl h.d⟩

theorem len3_eq (a b : V3) : Real.sqrt (dist2 a b) = len3 (vsub b a) := by
  unfold len3
  congr 1
  simp only [dist2, dot, vsub]; ring

theorem triDist_exact {S T : Corners} (rS : Regular S) (rT : Regular T) : TriOk S T (triDist S T) := by
  obtain ⟨x, y, hx, hy, hmin⟩ := exists_closest S T
  have h0 : EInv S T (dot (vsub y x) (vsub y x)) ⟨dist2 (S 0) (T 0) + 1, S 0, T 0, false, S 0, T 0⟩ := by
    refine ⟨?_, by simp, corner_inS S 0, corner_inS T 0⟩
    have := hmin _ _ (corner_inS S 0) (corner_inS T 0)
    have e : dot (vsub (T 0) (S 0)) (vsub (T 0) (S 0)) = dist2 (S 0) (T 0) := by
      simp only [dist2, dot, vsub]; ring
    simp only
    linarith
  unfold triDist
  rcases edgeLoop_spec hmin edgePairs _ h0 with ⟨r, e, hr⟩ | ⟨st, e, hst, hno⟩
  · rw [e]; exact hr.ok
  · rw [e]
    simp only
    rcases hf1 : faceTest S T with ⟨b1, o1⟩
    rcases hf2 : faceTest T S with ⟨b2, o2⟩
    cases o1 with
    | some cf =>
      obtain ⟨c, f⟩ := cf
      obtain ⟨g1, g2, g3⟩ := faceTest_exact hf1
      refine (Found.mk g1 g2 (len3_eq f c) ?_).ok
      intro x y hx hy
      simp only
      rw [len3_eq]
      exact g3 x y hx hy
    | none =>
      cases o2 with
      | some cf =>
        obtain ⟨c, f⟩ := cf
        obtain ⟨g1, g2, g3⟩ := faceTest_exact hf2
        refine (Found.mk g2 g1 (len3_eq c f) ?_).ok
        intro x y hx hy
        simp only
        rw [len3_eq, len3_neg, len3_neg y x]
        exact g3 y x hy hx
      | none =>
        simp only
        have hz : vsub y x = zero3 := by
          by_contra hne
          obtain ⟨k1, k2⟩ := closest_dot hx hy hmin
          rcases complete rS rT ⟨hx, hy, hne, k1, k2⟩ with ⟨i, j, x', y', hx', hy', ev⟩ | h | h
          · have := hno (i, j) (mem_edgePairs i j) x' y' hx' hy' (by rw [ev])
            have hd := dot_self_nonneg (vsub y x)
            exact hne (dot_self_eq_zero (le_antisymm this hd))
          · rw [hf1] at h; simp at h
          · rw [hf2] at h; simp at h
        have hxy : y = x := by
          simp only [vsub, zero3, V3.mk.injEq] at hz
          ext
          · linarith [hz.1]
          · linarith [hz.2.1]
          · linarith [hz.2.2]
        have hcom : ¬ Apart S T := fun h => h x hx (hxy ▸ hy)
        have s0 : st.shown = false := by
          by_contra hs
          exact hcom (hst.apart (by simpa using hs))
        have s1 : b1 = false := by
          by_contra hs
          rw [Bool.not_eq_false] at hs
          subst hs
          exact hcom (faceTest_sep hf1)
        have s2 : b2 = false := by
          by_contra hs
          rw [Bool.not_eq_false] at hs
          subst hs
          exact hcom (fun z h1 h2 => faceTest_sep hf2 z h2 h1)
        rw [s0, s1, s2]
        simp only [Bool.or_self, Bool.false_eq_true, if_false]
        refine ⟨hst.P, hst.Q, fun _ _ _ _ => len3_nonneg _, ⟨x, y, hx, hy, ?_⟩, .inr rfl⟩
        rw [hz]; simp [len3, dot, zero3]

end Simox.Pqp
