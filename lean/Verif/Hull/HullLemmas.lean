import Verif.Hull.ChainsLemmas
import Verif.Hull.Spec

/-!
# Lemmas: the polygon and its corners
-/

namespace Simox.Hull

open Classical

/-! ## Extreme points -/

/-- An affine function. -/
def aff (c : ℝ × ℝ × ℝ) (q : Pt) : ℝ := c.1 * q.1 + c.2.1 * q.2 + c.2.2

theorem aff_combo (c : ℝ × ℝ × ℝ) (x y : Pt) {a b : ℝ} (h : a + b = 1) :
    aff c (a • x + b • y) = a * aff c x + b * aff c y := by
  have e1 : (a • x + b • y : Pt).1 = a * x.1 + b * y.1 := rfl
  have e2 : (a • x + b • y : Pt).2 = a * x.2 + b * y.2 := rfl
  have hb : b = 1 - a := by linarith
  unfold aff
  rw [e1, e2, hb]
  ring

/-- A point that is first in one direction, and among those first in another one, is extreme. -/
theorem extreme_of {S : Set Pt} {v : Pt} (hv : v ∈ S) (f g : ℝ × ℝ × ℝ) (hf : aff f v = 0) (hg : aff g v = 0)
    (hS : ∀ q ∈ S, 0 ≤ aff f q ∧ (aff f q = 0 → 0 ≤ aff g q)) (hd : f.1 * g.2.1 - f.2.1 * g.1 ≠ 0) :
    v ∈ (convexHull ℝ S).extremePoints ℝ := by
  have hK : ∀ q ∈ convexHull ℝ S, 0 < aff f q ∨ (aff f q = 0 ∧ 0 ≤ aff g q) := by
    have hc : Convex ℝ {q : Pt | 0 < aff f q ∨ (aff f q = 0 ∧ 0 ≤ aff g q)} := by
      intro x hx y hy a b ha hb hab
      have hx : 0 < aff f x ∨ (aff f x = 0 ∧ 0 ≤ aff g x) := hx
      have hy : 0 < aff f y ∨ (aff f y = 0 ∧ 0 ≤ aff g y) := hy
      show 0 < aff f (a • x + b • y) ∨ (aff f (a • x + b • y) = 0 ∧ 0 ≤ aff g (a • x + b • y))
      rw [aff_combo f x y hab, aff_combo g x y hab]
      rcases eq_or_lt_of_le ha with rfl | ha
      · have : b = 1 := by linarith
        subst this
        simpa using hy
      rcases eq_or_lt_of_le hb with rfl | hb
      · have : a = 1 := by linarith
        subst this
        simpa using hx
      rcases hx with hx | ⟨hx1, hx2⟩ <;> rcases hy with hy | ⟨hy1, hy2⟩
      · left; exact add_pos (mul_pos ha hx) (mul_pos hb hy)
      · left; rw [hy1]; have := mul_pos ha hx; linarith
      · left; rw [hx1]; have := mul_pos hb hy; linarith
      · right; rw [hx1, hy1]; exact ⟨by ring, add_nonneg (mul_nonneg ha.le hx2) (mul_nonneg hb.le hy2)⟩
    refine fun q hq => convexHull_min ?_ hc hq
    intro q hq
    obtain ⟨h1, h2⟩ := hS q hq
    show 0 < aff f q ∨ (aff f q = 0 ∧ 0 ≤ aff g q)
    rcases eq_or_lt_of_le h1 with h | h
    · right; exact ⟨h.symm, h2 h.symm⟩
    · left; exact h
  refine ⟨subset_convexHull ℝ S hv, ?_⟩
  intro x hx y hy ho
  obtain ⟨a, b, ha, hb, hab, e⟩ := ho
  have hx := hK x hx
  have hy := hK y hy
  have ef := aff_combo f x y hab
  have eg := aff_combo g x y hab
  rw [e, hf] at ef
  rw [e, hg] at eg
  have fx : aff f x = 0 := by
    rcases hx with hx | ⟨hx, _⟩
    · have h1 := mul_pos ha hx
      have h2 : 0 ≤ b * aff f y := mul_nonneg hb.le (by rcases hy with hy | ⟨hy, _⟩ <;> linarith)
      linarith
    · exact hx
  have fy : aff f y = 0 := by
    rcases hy with hy | ⟨hy, _⟩
    · have h1 := mul_pos hb hy
      rw [fx] at ef
      linarith
    · exact hy
  have gx : 0 ≤ aff g x := by rcases hx with hx | ⟨_, hx⟩ <;> linarith
  have gy : 0 ≤ aff g y := by rcases hy with hy | ⟨_, hy⟩ <;> linarith
  have gx0 : aff g x = 0 := by
    by_contra hc
    have h1 := mul_pos ha (lt_of_le_of_ne gx (Ne.symm hc))
    have h2 := mul_nonneg hb.le gy
    linarith
  unfold aff at fx hf gx0 hg
  have d1 : (f.1 * g.2.1 - f.2.1 * g.1) * (x.1 - v.1) = 0 := by
    linear_combination g.2.1 * fx - g.2.1 * hf - f.2.1 * gx0 + f.2.1 * hg
  have d2 : (f.1 * g.2.1 - f.2.1 * g.1) * (x.2 - v.2) = 0 := by
    linear_combination f.1 * gx0 - f.1 * hg - g.1 * fx + g.1 * hf
  refine Prod.ext ?_ ?_
  · have := (mul_eq_zero.mp d1).resolve_left hd; linarith
  · have := (mul_eq_zero.mp d2).resolve_left hd; linarith

/-- `isLeft` as an affine function. -/
def leftFun (u v : Pt) : ℝ × ℝ × ℝ := (-(v.2 - u.2), v.1 - u.1, -(v.1 - u.1) * u.2 + (v.2 - u.2) * u.1)

theorem aff_left (u v q : Pt) : aff (leftFun u v) q = isLeft u v q := by
  unfold aff leftFun isLeft; ring

/-- A vertex between two edges that turn. -/
theorem extreme_turn {S : Set Pt} {u v w : Pt} (hv : v ∈ S) (h1 : ∀ q ∈ S, 0 ≤ isLeft u v q)
    (h2 : ∀ q ∈ S, 0 ≤ isLeft v w q) (ht : 0 < isLeft u v w) : v ∈ (convexHull ℝ S).extremePoints ℝ := by
  refine extreme_of hv (leftFun u v) (leftFun v w) (by rw [aff_left, isLeft_self]) (by rw [aff_left, isLeft_start]) ?_ ?_
  · intro q hq
    rw [aff_left, aff_left]
    exact ⟨h1 q hq, fun _ => h2 q hq⟩
  · have : (leftFun u v).1 * (leftFun v w).2.1 - (leftFun u v).2.1 * (leftFun v w).1 = isLeft u v w := by
      unfold leftFun isLeft; ring
    rw [this]; exact ne_of_gt ht

/-! ## Members of a chain -/

theorem mem_head_or : ∀ {s : List Pt} {v : Pt}, v ∈ s → s.head? = some v ∨ ∃ w, (v, w) ∈ edges s := by
  intro s
  induction s with
  | nil => intro v h; cases h
  | cons x l ih =>
    intro v h
    rcases List.mem_cons.mp h with rfl | h
    · left; rfl
    · right
      rcases ih h with g | ⟨w, g⟩
      · cases l with
        | nil => cases g
        | cons y r =>
          simp only [List.head?_cons, Option.some.injEq] at g
          subst g
          exact ⟨x, by simp [edges]⟩
      · exact ⟨w, edges_cons_subset _ _ g⟩

theorem mem_last_or : ∀ {s : List Pt} {v : Pt}, v ∈ s → s.getLast? = some v ∨ ∃ u, (u, v) ∈ edges s := by
  intro s
  induction s with
  | nil => intro v h; cases h
  | cons x l ih =>
    intro v h
    cases l with
    | nil =>
      rw [List.mem_singleton.mp h]; left; rfl
    | cons y r =>
      rcases List.mem_cons.mp h with rfl | h
      · right; exact ⟨y, by simp [edges]⟩
      · rcases ih h with g | ⟨w, g⟩
        · left; rw [List.getLast?_cons_cons]; exact g
        · right; exact ⟨w, edges_cons_subset _ _ g⟩

/-- Inner members have two edges, with a turn. -/
theorem mem_inner {s : List Pt} (ht : Turns s) {v : Pt} (hv : v ∈ s) :
    s.head? = some v ∨ s.getLast? = some v ∨
      ∃ u w, (u, v) ∈ edges s ∧ (v, w) ∈ edges s ∧ 0 < isLeft u v w := by
  rcases mem_last_or hv with g | ⟨u, g⟩
  · exact Or.inr (Or.inl g)
  · rcases edge_next ht g with k | ⟨w, k1, k2⟩
    · exact Or.inl k
    · exact Or.inr (Or.inr ⟨u, w, g, k1, k2⟩)

theorem edges_pairwise : ∀ {s : List Pt} {R : Pt → Pt → Prop}, (∀ a b c, R a b → R b c → R a c) →
    (∀ e ∈ edges s, R e.2 e.1) → s.Pairwise R := by
  intro s R htr
  induction s with
  | nil => intro _; exact List.Pairwise.nil
  | cons v l ih =>
    intro h
    have ih := ih fun e he => h e (edges_cons_subset _ _ he)
    refine List.pairwise_cons.mpr ⟨?_, ih⟩
    cases l with
    | nil => intro a ha; cases ha
    | cons u r =>
      have huv : R v u := h (u, v) (by simp [edges])
      intro a ha
      rcases List.mem_cons.mp ha with rfl | ha
      · exact huv
      · exact htr _ _ _ huv ((List.pairwise_cons.mp ih).1 a ha)

theorem pairwise_fst_inj {s : List Pt} (h : s.Pairwise fun a b => b.1 < a.1) {x y : Pt} (hx : x ∈ s) (hy : y ∈ s)
    (e : x.1 = y.1) : x = y := by
  induction s with
  | nil => cases hx
  | cons a l ih =>
    have h' := List.pairwise_cons.mp h
    rcases List.mem_cons.mp hx with gx | gx <;> rcases List.mem_cons.mp hy with gy | gy
    · rw [gx, gy]
    · have := h'.1 y gy; rw [gx] at e; linarith
    · have := h'.1 x gx; rw [gy] at e; linarith
    · exact ih h'.2 gx gy

theorem Chain.pairwise {P : List Pt} {b t : Pt} {s : List Pt} (h : Chain P b t s) :
    s.Pairwise fun a b => b.1 < a.1 :=
  edges_pairwise (fun _ _ _ h g => lt_trans g h) h.incr

theorem UpChain.pairwise {P : List Pt} {b t : Pt} {s : List Pt} (h : UpChain P b t s) :
    s.Pairwise fun a b => a.1 < b.1 :=
  edges_pairwise (fun _ _ _ h g => lt_trans h g) h.incr'

theorem pairwise_fst_inj' {s : List Pt} (h : s.Pairwise fun a b => a.1 < b.1) {x y : Pt} (hx : x ∈ s) (hy : y ∈ s)
    (e : x.1 = y.1) : x = y := by
  have : s.reverse.Pairwise fun a b => b.1 < a.1 := List.pairwise_reverse.mpr h
  exact pairwise_fst_inj this (List.mem_reverse.mpr hx) (List.mem_reverse.mpr hy) e

/-- A vertex of both chains is an end of both. -/
theorem both_chains {P : List Pt} {b1 t1 b2 t2 : Pt} {s1 s2 : List Pt} (h1 : Chain P b1 t1 s1)
    (h2 : UpChain P b2 t2 s2) (hl : t2.1 = b1.1) (hr : b2.1 = t1.1) {v : Pt} (m1 : v ∈ s1) (m2 : v ∈ s2) :
    (v = b1 ∧ v = t2) ∨ (v = t1 ∧ v = b2) := by
  have n1 : b1 ∈ s1 := List.mem_of_getLast? h1.last
  have n2 : t1 ∈ s1 := List.mem_of_head? h1.head
  have n3 : b2 ∈ s2 := List.mem_of_getLast? h2.last'
  have n4 : t2 ∈ s2 := List.mem_of_head? h2.head'
  by_cases g1 : v.1 = b1.1
  · left
    exact ⟨pairwise_fst_inj h1.pairwise m1 n1 g1, pairwise_fst_inj' h2.pairwise m2 n4 (g1.trans hl.symm)⟩
  by_cases g2 : v.1 = t1.1
  · right
    exact ⟨pairwise_fst_inj h1.pairwise m1 n2 g2, pairwise_fst_inj' h2.pairwise m2 n3 (g2.trans hr.symm)⟩
  exfalso
  rcases mem_inner h1.turns m1 with k | k | ⟨u, w, k1, k2, k3⟩
  · rw [h1.head] at k; injection k with k; exact g2 (by rw [k])
  · rw [h1.last] at k; injection k with k; exact g1 (by rw [k])
  rcases mem_last_or m2 with k | ⟨u', k⟩
  · rw [h2.last'] at k; injection k with k; exact g2 (by rw [← k]; exact hr)
  have hu' : u' ∈ P := h2.sub' (edges_mem k).1
  have hu : u ∈ P := h1.sub (edges_mem k1).1
  have a1 := h1.left _ k1 u' hu'
  have a2 := h1.left _ k2 u' hu'
  have a3 := h2.left' _ k u hu
  have i1 := h1.incr _ k1
  have i2 := h2.incr' _ k
  dsimp only at a1 a2 a3 i1 i2
  have z : isLeft u v u' = 0 := by
    have : isLeft u v u' = - isLeft u' v u := by unfold isLeft; ring
    linarith
  have e : isLeft v w u' * (v.1 - u.1) = -(u'.1 - v.1) * isLeft u v w + (w.1 - v.1) * isLeft u v u' := by
    unfold isLeft; ring
  rw [z] at e
  have b1 := mul_nonneg a2 (show 0 ≤ v.1 - u.1 by linarith)
  have b2 := mul_pos (show 0 < u'.1 - v.1 by linarith) k3
  linarith

theorem Chain.mono {P V : List Pt} {b t : Pt} {s : List Pt} (h : Chain P b t s) (hs : s ⊆ V) (hV : V ⊆ P) :
    Chain V b t s :=
  ⟨h.last, h.head, hs, h.incr, h.turns, fun e he q hq => h.left e he q (hV hq), h.lt⟩

theorem UpChain.mono {P V : List Pt} {b t : Pt} {s : List Pt} (h : UpChain P b t s) (hs : s ⊆ V) (hV : V ⊆ P) :
    UpChain V b t s :=
  Chain.mono h (List.map_subset _ hs) (List.map_subset _ hV)

theorem leftOf_iff (a b q : Pt) : LeftOf a b q ↔ 0 ≤ isLeft a b q := by
  unfold LeftOf isLeft
  constructor <;> intro h <;> linarith

section
variable {P A M B A' A'' B' B'' : List Pt} {a0 al b0 bl : Pt}

theorem Layout.extreme (h : Layout P A M B A' A'' B' B'' a0 al b0 bl) {v : Pt}
    (hv : v ∈ lowerOf a0 b0 M ∨ v ∈ upperOf bl al M) : v ∈ (hullSet P).extremePoints ℝ := by
  have hL := h.lower
  have hU := h.upper
  have hlt := h.lt
  have hal := h.ax al h.mem_al
  have hbl := h.bx bl h.mem_bl
  -- the corners
  have inA : ∀ q ∈ P, q.1 = a0.1 → q ∈ A := by
    intro q hq e
    rcases h.mem.mp hq with g | g | g
    · exact g
    · have := (h.mx q g).1; linarith
    · have := h.bx q g; linarith
  have inB : ∀ q ∈ P, q.1 = b0.1 → q ∈ B := by
    intro q hq e
    rcases h.mem.mp hq with g | g | g
    · have := h.ax q g; linarith
    · have := (h.mx q g).2; linarith
    · exact g
  have c1 : a0 ∈ (hullSet P).extremePoints ℝ := by
    refine extreme_of (h.mem.mpr (Or.inl h.mem_a0)) (1, 0, -a0.1) (0, 1, -a0.2) (by unfold aff; ring) (by unfold aff; ring) ?_ (by norm_num)
    intro q hq
    have := h.range q hq
    simp only [aff]
    refine ⟨by linarith, fun e => ?_⟩
    have := first_le h.a1 h.sortedA q (inA q hq (by linarith))
    linarith
  have c2 : al ∈ (hullSet P).extremePoints ℝ := by
    refine extreme_of (h.mem.mpr (Or.inl h.mem_al)) (1, 0, -al.1) (0, -1, al.2) (by unfold aff; ring) (by unfold aff; ring) ?_ (by norm_num)
    intro q hq
    have := h.range q hq
    simp only [aff]
    refine ⟨by linarith, fun e => ?_⟩
    have := last_ge h.a2 h.sortedA q (inA q hq (by linarith))
    linarith
  have c3 : b0 ∈ (hullSet P).extremePoints ℝ := by
    refine extreme_of (h.mem.mpr (Or.inr (Or.inr h.mem_b0))) (-1, 0, b0.1) (0, 1, -b0.2) (by unfold aff; ring) (by unfold aff; ring) ?_ (by norm_num)
    intro q hq
    have := h.range q hq
    simp only [aff]
    refine ⟨by linarith, fun e => ?_⟩
    have := first_le h.b1 h.sortedB q (inB q hq (by linarith))
    linarith
  have c4 : bl ∈ (hullSet P).extremePoints ℝ := by
    refine extreme_of (h.mem.mpr (Or.inr (Or.inr h.mem_bl))) (-1, 0, bl.1) (0, -1, bl.2) (by unfold aff; ring) (by unfold aff; ring) ?_ (by norm_num)
    intro q hq
    have := h.range q hq
    simp only [aff]
    refine ⟨by linarith, fun e => ?_⟩
    have := last_ge h.b2 h.sortedB q (inB q hq (by linarith))
    linarith
  rcases hv with hv | hv
  · rcases mem_inner hL.turns hv with k | k | ⟨u, w, k1, k2, k3⟩
    · rw [hL.head] at k; injection k with k; rw [← k]; exact c3
    · rw [hL.last] at k; injection k with k; rw [← k]; exact c1
    · exact extreme_turn (hL.sub hv) (fun q hq => hL.left _ k1 q hq) (fun q hq => hL.left _ k2 q hq) k3
  · rcases mem_inner hU.turns' hv with k | k | ⟨u, w, k1, k2, k3⟩
    · rw [hU.head'] at k; injection k with k; rw [← k]; exact c2
    · rw [hU.last'] at k; injection k with k; rw [← k]; exact c4
    · exact extreme_turn (hU.sub' hv) (fun q hq => hU.left' _ k1 q hq) (fun q hq => hU.left' _ k2 q hq) k3

theorem closedSegments_eq {k : Nat} :
    closedSegments k = (List.range k).map fun u => (u, (u + 1) % k) := by
  unfold closedSegments
  refine List.map_congr_left ?_
  intro u hu
  have hu := List.mem_range.mp hu
  by_cases g : u = k - 1
  · rw [if_neg (not_not.mpr g)]
    have : u + 1 = k := by omega
    rw [this, Nat.mod_self]
  · rw [if_pos g, Nat.mod_eq_of_lt (by omega)]

theorem left_of_edges {S : List Pt} {h : ConvexHull2D} (he : ∀ e ∈ hullEdges h, ∀ q ∈ S, 0 ≤ isLeft e.1 e.2 q) :
    ∀ i j a b, (i, j) ∈ h.segments → h.vertices[i]? = some a → h.vertices[j]? = some b →
      ∀ q ∈ S, LeftOf a b q := by
  intro i j a b hm ha hb q hq
  rw [leftOf_iff]
  have := he _ (List.mem_map_of_mem hm) q hq
  dsimp only at this
  rw [at'_some ha, at'_some hb] at this
  exact this

theorem Layout.result (h : Layout P A M B A' A'' B' B'' a0 al b0 bl) :
    ∃ H, chains P A'.length (A'.length + 1 + M.length) = some H ∧ Polygon P H ∧
      ∀ p, isInside p (some H) = true ↔ p ∈ hullSet P := by
  have hL := h.lower
  have hU := h.upper
  have hal := h.ax al h.mem_al
  have hbl := h.bx bl h.mem_bl
  have hl2 := last_ge h.a2 h.sortedA a0 h.mem_a0
  have hr2 := last_ge h.b2 h.sortedB b0 h.mem_b0
  obtain ⟨pre, rest, hp, hr, e⟩ := h.chains_eq
  obtain ⟨r, er, hlast, hbd, hmem⟩ := h.final hp hr
  rw [er] at e
  refine ⟨_, e, ?_, ?_⟩
  · have hv : (hullOf (a0 :: r) ((a0 :: r).length - 1)).vertices = r.reverse := by
      simp [hullOf]
    have hseg : (hullOf (a0 :: r) ((a0 :: r).length - 1)).segments = closedSegments r.length := by
      simp [hullOf]
    have hVP : (lowerOf a0 b0 M ++ upperOf bl al M) ⊆ P := by
      intro x hx
      rcases List.mem_append.mp hx with g | g
      · exact hL.sub g
      · exact hU.sub' g
    have e1 := region_iff hL hU hal hbl h.range
    have e2 := region_iff (hL.mono (List.subset_append_left _ _) hVP) (hU.mono (List.subset_append_right _ _) hVP)
      hal hbl fun q hq => h.range q (hVP hq)
    have hset : hullSet P = hullSet r.reverse := by
      have : {q | q ∈ r.reverse} = {q | q ∈ lowerOf a0 b0 M ++ upperOf bl al M} := by
        ext v
        show v ∈ r.reverse ↔ v ∈ lowerOf a0 b0 M ++ upperOf bl al M
        rw [List.mem_reverse, hmem, List.mem_append]
      unfold hullSet
      rw [this]
      ext p
      exact (e1 p).symm.trans (e2 p)
    refine ⟨?_, ?_, ?_, ?_, ?_⟩
    · intro v
      rw [hv]
      constructor
      · intro hx
        rw [List.mem_reverse, hmem] at hx
        exact h.extreme hx
      · intro hx
        rw [hset] at hx
        have : v ∈ {q | q ∈ r.reverse} := extremePoints_convexHull_subset hx
        exact this
    · rw [hv]; exact hset.symm
    · rw [hseg, hv, List.length_reverse, closedSegments_eq]
    · refine left_of_edges ?_
      intro e he q hq
      rw [hullOf_edges hlast] at he
      have hq' := h.range q hq
      rcases hbd.mem e he with k | k | ⟨rfl, k⟩ | ⟨rfl, k⟩
      · exact hL.left e k q hq
      · exact hU.left' e k q hq
      · have e' : isLeft b0 bl q = (b0.1 - q.1) * (bl.2 - b0.2) := by unfold isLeft; rw [hbl]; ring
        rw [e']
        exact mul_nonneg (by linarith) (by linarith)
      · have e' : isLeft al a0 q = (q.1 - a0.1) * (al.2 - a0.2) := by unfold isLeft; rw [hal]; ring
        rw [e']
        exact mul_nonneg (by linarith) (by linarith)
    · intro _
      rw [hv, List.nodup_reverse]
      have nL : (lowerOf a0 b0 M).Nodup := hL.pairwise.imp fun hlt e => by rw [e] at hlt; exact lt_irrefl _ hlt
      have nU : (upperOf bl al M).Nodup := hU.pairwise.imp fun hlt e => by rw [e] at hlt; exact lt_irrefl _ hlt
      have nr : rest.Nodup := by
        rcases hr with ⟨rfl, _⟩ | ⟨rfl, _⟩
        · exact nL.sublist (List.tail_sublist _)
        · exact nL
      have hrest : ∀ v ∈ rest, v ∈ lowerOf a0 b0 M ∧ (bl = b0 → v ≠ b0) := by
        intro v hv
        rcases hr with ⟨rfl, _⟩ | ⟨rfl, g⟩
        · refine ⟨List.mem_of_mem_tail hv, fun _ e => ?_⟩
          rw [lowerOf_head] at nL
          rw [e] at hv
          exact (List.nodup_cons.mp nL).1 hv
        · exact ⟨hv, fun k => absurd k g⟩
      rcases hp with ⟨rfl, g⟩ | ⟨rfl, g⟩
      · have er' : r = (upperOf bl al M).tail ++ rest := by
          rw [List.nil_append, upperOf_head, ← g] at er
          simp only [List.cons_append, List.cons.injEq, true_and] at er
          rw [← er]
          congr 1
          rw [← g]
        rw [er', List.nodup_append]
        refine ⟨nU.sublist (List.tail_sublist _), nr, ?_⟩
        intro v hv w hw e
        subst e
        obtain ⟨w1, w2⟩ := hrest v hw
        rcases both_chains hL hU hal hbl w1 (List.mem_of_mem_tail hv) with ⟨k1, k2⟩ | ⟨k1, k2⟩
        · rw [upperOf_head] at nU
          rw [k2] at hv
          exact (List.nodup_cons.mp nU).1 hv
        · exact w2 (k2.symm.trans k1) k1
      · have er' : r = upperOf bl al M ++ rest := by
          simp only [List.cons_append, List.nil_append, List.cons.injEq, true_and] at er
          exact er.symm
        rw [er', List.nodup_append]
        refine ⟨nU, nr, ?_⟩
        intro v hv w hw e
        subst e
        obtain ⟨w1, w2⟩ := hrest v hw
        rcases both_chains hL hU hal hbl w1 hv with ⟨k1, k2⟩ | ⟨k1, k2⟩
        · exact g (k1.symm.trans k2)
        · exact w2 (k2.symm.trans k1) k1
  · intro p
    rw [isInside_some]
    have hbd' : Boundary a0 b0 bl al (lowerOf a0 b0 M) (upperOf bl al M)
        (hullEdges (hullOf (a0 :: r) ((a0 :: r).length - 1))) :=
      ⟨fun e he => hbd.mem e ((hullOf_edges hlast e).mp he), fun e he => (hullOf_edges hlast e).mpr (hbd.lower he),
        fun e he => (hullOf_edges hlast e).mpr (hbd.upper he), fun g => (hullOf_edges hlast _).mpr (hbd.right g),
        fun g => (hullOf_edges hlast _).mpr (hbd.left g)⟩
    exact inside_iff hL hU hbd' hal hbl hl2 hr2 h.range p

end

/-! ## All points on a vertical line -/

theorem degenerate_result {P : List Pt} {a b : Pt} {l l' : List Pt} (h1 : P = a :: l) (h2 : P = l' ++ [b])
    (hs : P.Pairwise lexLt) (hx : ∀ q ∈ P, q.1 = a.1) (hn : 3 ≤ P.length) :
    ∃ H, degenerate P (P.length - 1) = some H ∧ Polygon P H ∧ ∀ p, isInside p (some H) = true ↔ p ∈ hullSet P := by
  have hy := sorted_y hs hx
  have mb : b ∈ P := by rw [h2]; simp
  have ma : a ∈ P := by rw [h1]; simp
  have hbx := hx b mb
  have lo := first_le h1 hy
  have hi := last_ge h2 hy
  have hlt : a.2 < b.2 := by
    have : l ≠ [] := by intro g; rw [h1, g] at hn; simp at hn
    have hbl : b ∈ l := by
      have h2' := h2
      rw [h1] at h2'
      cases l' with
      | nil =>
        simp only [List.nil_append, List.cons.injEq] at h2'
        exact absurd h2'.2 this
      | cons x l2 =>
        simp only [List.cons_append, List.cons.injEq] at h2'
        rw [h2'.2]; simp
    rw [h1] at hy
    exact (List.pairwise_cons.mp hy).1 b hbl
  have e0 : at' P 0 = a := by rw [h1]; rfl
  have e1 : at' P (P.length - 1) = b := by
    have : P.length - 1 = l'.length := by rw [h2]; simp
    rw [this, h2, at'_append]
  have e : degenerate P (P.length - 1) = some ⟨[a, b, a], [(0, 1), (1, 2), (2, 0)]⟩ := by
    unfold degenerate
    have c1 : push (P.length * 2) a [] = some [a] := if_pos (by simp only [List.length_nil]; omega)
    have c2 : push (P.length * 2) b [a] = some [b, a] :=
      if_pos (by simp only [List.length_cons, List.length_nil]; omega)
    have c3 : push (P.length * 2) a [b, a] = some [a, b, a] :=
      if_pos (by simp only [List.length_cons, List.length_nil]; omega)
    simp only [e0, e1, c1, Option.bind_eq_bind, Option.bind_some]
    rw [if_pos (ne_of_gt hlt), c2, Option.bind_some, c3]
    rfl
  have hull : ∀ p, p ∈ hullSet P ↔ p.1 = a.1 ∧ a.2 ≤ p.2 ∧ p.2 ≤ b.2 := by
    intro p
    constructor
    · have hc : Convex ℝ {p : Pt | p.1 = a.1 ∧ a.2 ≤ p.2 ∧ p.2 ≤ b.2} := by
        rintro x ⟨x1, x2, x3⟩ y ⟨y1, y2, y3⟩ c d hc hd hcd
        have k1 : (c • x + d • y : Pt).1 = c * x.1 + d * y.1 := rfl
        have k2 : (c • x + d • y : Pt).2 = c * x.2 + d * y.2 := rfl
        have hd' : d = 1 - c := by linarith
        refine ⟨?_, ?_, ?_⟩
        · rw [k1, x1, y1, hd']; ring
        · rw [k2]
          have := mul_le_mul_of_nonneg_left x2 hc
          have := mul_le_mul_of_nonneg_left y2 hd
          have : a.2 = c * a.2 + d * a.2 := by rw [hd']; ring
          linarith
        · rw [k2]
          have := mul_le_mul_of_nonneg_left x3 hc
          have := mul_le_mul_of_nonneg_left y3 hd
          have : b.2 = c * b.2 + d * b.2 := by rw [hd']; ring
          linarith
      intro hp
      have hsub : {q : Pt | q ∈ P} ⊆ {p : Pt | p.1 = a.1 ∧ a.2 ≤ p.2 ∧ p.2 ≤ b.2} :=
        fun q hq => ⟨hx q hq, lo q hq, hi q hq⟩
      exact convexHull_min hsub hc hp
    · rintro ⟨p1, p2, p3⟩
      have hd : 0 < b.2 - a.2 := by linarith
      have := mem_hull_combo (subset_convexHull ℝ {q | q ∈ P} ma) (subset_convexHull ℝ {q | q ∈ P} mb)
        (c := (p.2 - a.2) / (b.2 - a.2)) (div_nonneg (by linarith) hd.le) ((div_le_one hd).mpr (by linarith))
      rw [div_mul_cancel₀ _ (ne_of_gt hd), hbx] at this
      have k : p = (a.1 + (p.2 - a.2) / (b.2 - a.2) * (a.1 - a.1), a.2 + (p.2 - a.2)) := by
        refine Prod.ext ?_ ?_
        · dsimp only; rw [p1]; ring
        · dsimp only; ring
      rw [k]; exact this
  have hab : ∀ q, isLeft a b q = -((q.1 - a.1) * (b.2 - a.2)) := by intro q; unfold isLeft; rw [hbx]; ring
  have hba : ∀ q, isLeft b a q = (q.1 - a.1) * (b.2 - a.2) := by intro q; unfold isLeft; rw [hbx]; ring
  have haa : ∀ q, isLeft a a q = 0 := by intro q; unfold isLeft; ring
  have hedges : hullEdges ⟨[a, b, a], [(0, 1), (1, 2), (2, 0)]⟩ = [(a, b), (b, a), (a, a)] := rfl
  have hset : hullSet P = hullSet [a, b, a] := by
    refine Set.Subset.antisymm ?_ ?_
    · intro p hp
      obtain ⟨p1, p2, p3⟩ := (hull p).mp hp
      have hd : 0 < b.2 - a.2 := by linarith
      have := mem_hull_combo (subset_convexHull ℝ {q | q ∈ [a, b, a]} (show a ∈ [a, b, a] by simp))
        (subset_convexHull ℝ {q | q ∈ [a, b, a]} (show b ∈ [a, b, a] by simp))
        (c := (p.2 - a.2) / (b.2 - a.2)) (div_nonneg (by linarith) hd.le) ((div_le_one hd).mpr (by linarith))
      rw [div_mul_cancel₀ _ (ne_of_gt hd), hbx] at this
      have k : p = (a.1 + (p.2 - a.2) / (b.2 - a.2) * (a.1 - a.1), a.2 + (p.2 - a.2)) := by
        refine Prod.ext ?_ ?_
        · dsimp only; rw [p1]; ring
        · dsimp only; ring
      rw [k]; exact this
    · refine convexHull_mono ?_
      intro q hq
      have hq : q ∈ [a, b, a] := hq
      simp only [List.mem_cons, List.not_mem_nil, or_false] at hq
      rcases hq with rfl | rfl | rfl
      · exact ma
      · exact mb
      · exact ma
  refine ⟨_, e, ⟨?_, hset.symm, ?_, ?_, ?_⟩, ?_⟩
  · intro v
    have hS : (hullSet P).extremePoints ℝ = {v | v = a ∨ v = b} := by
      ext v
      constructor
      · intro hv
        rw [hset] at hv
        have := extremePoints_convexHull_subset hv
        have : v ∈ [a, b, a] := this
        simp only [List.mem_cons, List.not_mem_nil, or_false] at this
        show v = a ∨ v = b
        tauto
      · rintro (rfl | rfl)
        · refine extreme_of (show v ∈ {q | q ∈ P} from ma) (0, 1, -v.2) (1, 0, -v.1) (by unfold aff; ring)
            (by unfold aff; ring) ?_ (by norm_num)
          intro q hq
          have g1 := lo q hq
          have g2 := hx q hq
          simp only [aff]
          exact ⟨by linarith, fun _ => by linarith⟩
        · refine extreme_of (show v ∈ {q | q ∈ P} from mb) (0, -1, v.2) (1, 0, -v.1) (by unfold aff; ring)
            (by unfold aff; ring) ?_ (by norm_num)
          intro q hq
          have g1 := hi q hq
          have g2 := hx q hq
          simp only [aff]
          exact ⟨by linarith, fun _ => by linarith⟩
    rw [hS]
    show v ∈ [a, b, a] ↔ v = a ∨ v = b
    simp only [List.mem_cons, List.not_mem_nil, or_false]
    tauto
  · show _ = List.map _ (List.range 3)
    simp [List.range_succ]
  · refine left_of_edges ?_
    rw [hedges]
    intro e he q hq
    simp only [List.mem_cons, List.not_mem_nil, or_false] at he
    rcases he with rfl | rfl | rfl
    · rw [hab, hx q hq]; simp
    · rw [hba, hx q hq]; simp
    · rw [haa]
  · rintro ⟨p, hp, q, hq, g⟩
    exact absurd ((hx p hp).trans (hx q hq).symm) g
  · intro p
    rw [isInside_some, hedges, hull]
    constructor
    · intro h
      unfold insideE at h
      dsimp only at h
      rw [hab] at h
      by_cases g : -((p.1 - a.1) * (b.2 - a.2)) ≤ 0
      · rw [if_pos g] at h
        by_cases g0 : -((p.1 - a.1) * (b.2 - a.2)) = 0
        · rw [if_pos g0] at h
          have k1 : p.1 = a.1 := by
            have : (p.1 - a.1) * (b.2 - a.2) = 0 := by linarith
            rcases mul_eq_zero.mp this with k | k <;> linarith
          by_cases g1 : (p.1 - a.1) * (p.1 - b.1) > 0
          · rw [if_pos g1] at h; cases h
          · rw [if_neg g1] at h
            by_cases g2 : (p.2 - a.2) * (p.2 - b.2) > 0
            · rw [if_pos g2] at h; cases h
            · refine ⟨k1, ?_, ?_⟩
              · by_contra hc
                exact g2 (mul_pos_of_neg_of_neg (by linarith) (by linarith))
              · by_contra hc
                exact g2 (mul_pos (by linarith) (by linarith))
        · rw [if_neg g0] at h; cases h
      · rw [if_neg g] at h
        unfold insideE at h
        dsimp only at h
        rw [hba, if_pos (by linarith), if_neg (by linarith)] at h
        cases h
    · rintro ⟨p1, p2, p3⟩
      unfold insideE
      dsimp only
      rw [hab, p1, if_pos (by simp), if_pos (by simp), if_neg (by simp), if_neg (not_lt.mpr (mul_nonpos_of_nonneg_of_nonpos (by linarith) (by linarith)))]

/-! ## The points in order -/

/-- The result for points in order. -/
theorem sorted_result {P : List Pt} (hs : P.Pairwise lexLt) (hn : 3 ≤ P.length) :
    ∃ H, (if scanUp (at' P 0).1 P.tail 1 - 1 = P.length - 1 then
        Res.ofOption (degenerate P (scanUp (at' P 0).1 P.tail 1 - 1))
      else Res.ofOption (chains P (scanUp (at' P 0).1 P.tail 1 - 1)
        (scanDown P (at' P (P.length - 1)).1 (P.length - 1)))) = Res.ok H ∧ Polygon P H ∧
      ∀ p, isInside p (some H) = true ↔ p ∈ hullSet P := by
  obtain ⟨a, l, h1⟩ : ∃ a l, P = a :: l := by
    cases P with
    | nil => simp at hn
    | cons a l => exact ⟨a, l, rfl⟩
  obtain ⟨l', b, h2⟩ : ∃ l' b, P = l' ++ [b] := by
    rcases List.eq_nil_or_concat P with g | ⟨l', b, g⟩
    · rw [g] at hn; simp at hn
    · exact ⟨l', b, by rw [g, List.concat_eq_append]⟩
  have ma : a ∈ P := by rw [h1]; simp
  have mb : b ∈ P := by rw [h2]; simp
  have e0 : at' P 0 = a := by rw [h1]; rfl
  have hmin : ∀ q ∈ P, a.1 ≤ q.1 := by
    intro q hq
    rw [h1] at hq hs
    rcases List.mem_cons.mp hq with rfl | hq
    · exact le_rfl
    · exact lexLe_fst (Or.inl ((List.pairwise_cons.mp hs).1 q hq))
  have hmax : ∀ q ∈ P, q.1 ≤ b.1 := by
    intro q hq
    rw [h2] at hq hs
    rcases List.mem_append.mp hq with hq | hq
    · exact lexLe_fst (Or.inl ((List.pairwise_append.mp hs).2.2 q hq b (by simp)))
    · rw [List.mem_singleton.mp hq]
  by_cases hab : a.1 = b.1
  · have hx : ∀ q ∈ P, q.1 = a.1 := fun q hq => le_antisymm (hab ▸ hmax q hq) (hmin q hq)
    have hscan : scanUp (at' P 0).1 P.tail 1 - 1 = P.length - 1 := by
      rw [e0, h1, List.tail_cons, scanUp_all l 1 fun q hq => hx q (by rw [h1]; exact List.mem_cons_of_mem _ hq)]
      simp
    obtain ⟨H, r1, r2, r3⟩ := degenerate_result h1 h2 hs hx hn
    refine ⟨H, ?_, r2, r3⟩
    rw [hscan, if_pos rfl, r1]
    rfl
  · have hlt : a.1 < b.1 := lt_of_le_of_ne (hmin b mb) hab
    obtain ⟨A, M, B, eP, hA, hB, hAx, hMx, hBx⟩ := split3 hs ma mb hmin hmax hlt
    obtain ⟨a0, A'', eA⟩ := List.exists_cons_of_ne_nil hA
    obtain ⟨b0, B', eB⟩ := List.exists_cons_of_ne_nil hB
    have hA2 : ∃ A' al, A = A' ++ [al] := by
      rcases List.eq_nil_or_concat A with g | ⟨l', b, g⟩
      · exact absurd g hA
      · exact ⟨l', b, by rw [g, List.concat_eq_append]⟩
    have hB2 : ∃ B'' bl, B = B'' ++ [bl] := by
      rcases List.eq_nil_or_concat B with g | ⟨l', b, g⟩
      · exact absurd g hB
      · exact ⟨l', b, by rw [g, List.concat_eq_append]⟩
    obtain ⟨A', al, eA2⟩ := hA2
    obtain ⟨B'', bl, eB2⟩ := hB2
    have ea : a = a0 := by
      rw [h1, eA] at eP
      simp only [List.cons_append, List.cons.injEq] at eP
      exact eP.1
    have hb0 : b0.1 = b.1 := hBx b0 (by rw [eB]; simp)
    have L : Layout P A M B A' A'' B' B'' a0 al b0 bl :=
      ⟨eP, eA, eA2, eB, eB2, hs, fun q hq => by rw [hAx q hq, ea], fun m hm => by rw [← ea, hb0]; exact hMx m hm,
        fun q hq => by rw [hBx q hq, hb0], by rw [← ea, hb0]; exact hlt⟩
    have hlen := L.lenP
    -- the scans
    have hup : scanUp (at' P 0).1 P.tail 1 - 1 = A'.length := by
      have hlA := L.lenA
      rw [eA, List.length_cons] at hlA
      obtain ⟨d, D, hD⟩ : ∃ d D, M ++ B = d :: D ∧ d.1 ≠ a.1 := by
        cases M with
        | nil =>
          refine ⟨b0, B', by rw [eB]; rfl, ?_⟩
          rw [hb0]; exact ne_of_gt hlt
        | cons m M' => exact ⟨m, M' ++ B, rfl, ne_of_gt (hMx m (by simp)).1⟩
      rw [e0, eP, eA, List.append_assoc, List.cons_append, List.tail_cons, hD.1,
        scanUp_eq A'' 1 (fun q hq => hAx q (by rw [eA]; exact List.mem_cons_of_mem _ hq)) hD.2]
      omega
    have hdown : scanDown P (at' P (P.length - 1)).1 (P.length - 1) = A'.length + 1 + M.length := by
      have ebl : (at' P (P.length - 1)).1 = b0.1 := by rw [L.atMaxmax]; exact L.bx bl L.mem_bl
      obtain ⟨X, y, hX, hy⟩ : ∃ X y, A ++ M = X ++ [y] ∧ y.1 ≠ b0.1 := by
        rcases List.eq_nil_or_concat M with g | ⟨M', m, g⟩
        · refine ⟨A', al, by rw [g, List.append_nil, eA2], ?_⟩
          rw [L.ax al L.mem_al]; exact ne_of_lt L.lt
        · refine ⟨A ++ M', m, by rw [g, List.concat_eq_append, List.append_assoc], ?_⟩
          exact ne_of_lt (L.mx m (by rw [g, List.concat_eq_append]; simp)).2
      have hXl : X.length + 1 = A'.length + 1 + M.length := by
        have := congrArg List.length hX
        simp only [List.length_append, List.length_cons, List.length_nil, L.lenA] at this
        omega
      have eP' : P = X ++ y :: B := by rw [eP, hX]; simp
      rw [ebl]
      have := scanDown_eq X hy L.bx (P.length - 1) (by omega) (by rw [L.lenB]; omega)
      rw [← eP'] at this
      omega
    obtain ⟨H, r1, r2, r3⟩ := L.result
    refine ⟨H, ?_, r2, r3⟩
    rw [hup, hdown, if_neg (by omega), r1]
    rfl

/-! ## Removing double entries, and sorting -/

theorem close_symm {a b : Pt} (h : close a b) : close b a := by
  unfold close at *
  calc _ = (a.1 - b.1) * (a.1 - b.1) + (a.2 - b.2) * (a.2 - b.2) := by ring
    _ < _ := h

theorem close_iff (a b : Pt) : close a b ↔ sqDist a b < (1 / 10 ^ 4) ^ 2 := by
  unfold close sqDist
  have e1 : (a.1 - b.1) * (a.1 - b.1) + (a.2 - b.2) * (a.2 - b.2) = (a.1 - b.1) ^ 2 + (a.2 - b.2) ^ 2 := by ring
  have e2 : ((1 : ℝ) / 10 ^ 4) ^ 2 = 1 / 10 ^ 8 := by norm_num
  rw [e1, e2]

theorem close_self (a : Pt) : close a a := by
  unfold close
  rw [sub_self, sub_self]
  norm_num

theorem removeDoubles_sublist : ∀ (n : Nat) (l : List Pt), l.length = n → (removeDoubles l).Sublist l := by
  intro n
  induction n using Nat.strong_induction_on with
  | _ n ih =>
    intro l hl
    cases l with
    | nil => unfold removeDoubles; exact List.Sublist.refl _
    | cons p l =>
      unfold removeDoubles
      have hf : (erase p l).Sublist l := List.filter_sublist
      have := hf.length_le
      refine List.Sublist.cons_cons _ ?_
      exact (ih _ (by rw [← hl, List.length_cons]; omega) (erase p l) rfl).trans hf

theorem removeDoubles_apart : ∀ (n : Nat) (l : List Pt), l.length = n →
    (removeDoubles l).Pairwise fun a b => ¬ close a b := by
  intro n
  induction n using Nat.strong_induction_on with
  | _ n ih =>
    intro l hl
    cases l with
    | nil => unfold removeDoubles; exact List.Pairwise.nil
    | cons p l =>
      unfold removeDoubles
      have hf : (erase p l).Sublist l := List.filter_sublist
      have := hf.length_le
      refine List.pairwise_cons.mpr ⟨?_, ih _ (by rw [← hl, List.length_cons]; omega) (erase p l) rfl⟩
      intro q hq
      have := (removeDoubles_sublist _ (erase p l) rfl).subset hq
      simpa using (List.mem_filter.mp this).2

theorem removeDoubles_near : ∀ (n : Nat) (l : List Pt), l.length = n →
    ∀ q ∈ l, ∃ k ∈ removeDoubles l, close k q := by
  intro n
  induction n using Nat.strong_induction_on with
  | _ n ih =>
    intro l hl q hq
    cases l with
    | nil => cases hq
    | cons p l =>
      unfold removeDoubles
      have hf : (erase p l).Sublist l := List.filter_sublist
      have := hf.length_le
      rcases List.mem_cons.mp hq with rfl | hq
      · exact ⟨q, by simp, close_self q⟩
      · by_cases hc : close p q
        · exact ⟨p, by simp, hc⟩
        · obtain ⟨k, hk, g⟩ := ih _ (by rw [← hl, List.length_cons]; omega) (erase p l) rfl q
            (List.mem_filter.mpr ⟨hq, by simpa using hc⟩)
          exact ⟨k, List.mem_cons_of_mem _ hk, g⟩

theorem sortPoints_mem {points : List Pt} {q : Pt} : q ∈ sortPoints points ↔ q ∈ removeDoubles points :=
  List.mem_insertionSort _

theorem sortPoints_apart (points : List Pt) : (sortPoints points).Pairwise fun a b => ¬ close a b := by
  refine (List.Perm.pairwise_iff (fun h g => h (close_symm g)) (List.perm_insertionSort _ _)).mpr ?_
  exact removeDoubles_apart _ points rfl

theorem sortPoints_sorted (points : List Pt) : (sortPoints points).Pairwise lexLt := by
  have h1 : (sortPoints points).Pairwise fun a b => ¬ lexLt b a := by
    have : Std.Total (fun a b : Pt => ¬ lexLt b a) := ⟨fun a b => by
      by_cases h : lexLt b a
      · right; exact lexLt_asymm h
      · left; exact h⟩
    have : IsTrans Pt (fun a b : Pt => ¬ lexLt b a) := ⟨fun a b c h g k => by
      rcases lexLt_tri a b with x | rfl | x
      · rcases lexLt_tri b c with y | rfl | y
        · exact lexLt_asymm (lexLt_trans x y) k
        · exact h k
        · exact g y
      · exact g k
      · exact h x⟩
    exact List.pairwise_insertionSort _ _
  refine (h1.and (sortPoints_apart points)).imp ?_
  rintro a b ⟨g1, g2⟩
  rcases lexLt_tri a b with x | rfl | x
  · exact x
  · exact absurd (close_self a) g2
  · exact absurd x g1

theorem thinned (points : List Pt) : Thinned points (sortPoints points) := by
  refine ⟨?_, ?_, ?_⟩
  · intro k hk
    exact (removeDoubles_sublist _ points rfl).subset (sortPoints_mem.mp hk)
  · intro p hp
    obtain ⟨k, hk, g⟩ := removeDoubles_near _ points rfl p hp
    exact ⟨k, sortPoints_mem.mpr hk, (close_iff k p).mp g⟩
  · exact (sortPoints_apart points).imp fun h => not_lt.mp fun g => h ((close_iff _ _).mpr g)

theorem removeDoubles_id : ∀ {l : List Pt}, l.Pairwise (fun a b => ¬ close a b) → removeDoubles l = l := by
  intro l
  induction l with
  | nil => intro _; unfold removeDoubles; rfl
  | cons p l ih =>
    intro h
    have h' := List.pairwise_cons.mp h
    unfold removeDoubles
    have : erase p l = l := List.filter_eq_self.mpr fun q hq => by simpa using h'.1 q hq
    rw [this, ih h'.2]

theorem sortPoints_mem_of_apart {l : List Pt} (h : l.Pairwise fun a b => (1 / 10 ^ 4) ^ 2 ≤ sqDist a b) (q : Pt) :
    q ∈ sortPoints l ↔ q ∈ l := by
  rw [sortPoints_mem, removeDoubles_id (h.imp fun g k => not_lt.mpr g ((close_iff _ _).mp k))]

theorem sortPoints_length_of_apart {l : List Pt} (h : l.Pairwise fun a b => (1 / 10 ^ 4) ^ 2 ≤ sqDist a b) :
    (sortPoints l).length = l.length := by
  unfold sortPoints
  rw [List.length_insertionSort, removeDoubles_id (h.imp fun g k => not_lt.mpr g ((close_iff _ _).mp k))]

theorem hullSet_congr {S T : List Pt} (h : ∀ q, q ∈ S ↔ q ∈ T) : hullSet S = hullSet T := by
  have : {q | q ∈ S} = {q | q ∈ T} := Set.ext h
  unfold hullSet
  rw [this]

theorem Polygon.congr {S T : List Pt} {H : ConvexHull2D} (hP : Polygon S H) (h : ∀ q, q ∈ S ↔ q ∈ T) :
    Polygon T H := by
  have e := hullSet_congr h
  refine ⟨fun v => by rw [← e]; exact hP.corners v, by rw [← e]; exact hP.span, hP.ring,
    fun i j a b h1 h2 h3 q hq => hP.left i j a b h1 h2 h3 q ((h q).mpr hq), ?_⟩
  rintro ⟨p, hp, q, hq, g⟩
  exact hP.once ⟨p, (h p).mpr hp, q, (h q).mpr hq, g⟩

/-- What `createConvexHull2D` returns. -/
theorem create_result {points : List Pt} (hn : 3 ≤ (sortPoints points).length) :
    ∃ H, createConvexHull2D points = .ok H ∧ Polygon (sortPoints points) H ∧
      ∀ p, isInside p (some H) = true ↔ p ∈ hullSet (sortPoints points) := by
  obtain ⟨H, h1, h2, h3⟩ := sorted_result (sortPoints_sorted points) hn
  refine ⟨H, ?_, h2, h3⟩
  unfold createConvexHull2D
  dsimp only
  rw [if_neg (by omega)]
  exact h1

theorem create_throw {points : List Pt} (hn : (sortPoints points).length < 3) :
    createConvexHull2D points = .throw := by
  unfold createConvexHull2D
  dsimp only
  rw [if_pos hn]

theorem create_ok {points : List Pt} {H : ConvexHull2D} (h : createConvexHull2D points = .ok H) :
    Polygon (sortPoints points) H ∧ (∀ p, isInside p (some H) = true ↔ p ∈ hullSet (sortPoints points)) ∧
      3 ≤ (sortPoints points).length := by
  by_cases hn : 3 ≤ (sortPoints points).length
  · obtain ⟨H', h1, h2, h3⟩ := create_result hn
    rw [h1] at h
    injection h with h
    subst h
    exact ⟨h2, h3, hn⟩
  · rw [create_throw (by omega)] at h; cases h

/-! ## The centre -/

/-- `c` is the smallest value of `f` on `S`. -/
def Least (S : List Pt) (f : Pt → ℝ) (c : ℝ) : Prop := (∃ q ∈ S, f q = c) ∧ ∀ q ∈ S, c ≤ f q

theorem boxLoop_spec : ∀ (l S : List Pt) (b : Pt × Pt), S ≠ [] →
    Least S (·.1) b.1.1 → Least S (·.2) b.1.2 → Least S (-·.1) (-b.2.1) → Least S (-·.2) (-b.2.2) →
    Least (S ++ l) (·.1) (boxLoop l b).1.1 ∧ Least (S ++ l) (·.2) (boxLoop l b).1.2 ∧
      Least (S ++ l) (-·.1) (-(boxLoop l b).2.1) ∧ Least (S ++ l) (-·.2) (-(boxLoop l b).2.2) := by
  intro l
  induction l with
  | nil => intro S b _ h1 h2 h3 h4; simp only [List.append_nil]; exact ⟨h1, h2, h3, h4⟩
  | cons v l ih =>
    intro S b hS h1 h2 h3 h4
    obtain ⟨lo, hi⟩ := b
    have e : S ++ v :: l = (S ++ [v]) ++ l := by simp
    rw [e]
    have step : ∀ (f : Pt → ℝ) (c d : ℝ), Least S f c → (d = if c > f v then f v else c) → Least (S ++ [v]) f d := by
      intro f c d h hd
      obtain ⟨⟨q, hq, e⟩, hle⟩ := h
      by_cases g : c > f v
      · rw [if_pos g] at hd
        refine ⟨⟨v, by simp, hd.symm⟩, ?_⟩
        intro x hx
        rcases List.mem_append.mp hx with k | k
        · have := hle x k; linarith
        · rw [List.mem_singleton.mp k, hd]
      · rw [if_neg g] at hd
        refine ⟨⟨q, by simp [hq], by rw [e, hd]⟩, ?_⟩
        intro x hx
        rcases List.mem_append.mp hx with k | k
        · rw [hd]; exact hle x k
        · rw [List.mem_singleton.mp k, hd]; exact not_lt.mp g
    unfold boxLoop
    refine ih (S ++ [v]) _ (by simp) (step _ _ _ h1 rfl) (step _ _ _ h2 rfl) (step _ _ _ h3 ?_) (step _ _ _ h4 ?_)
    · dsimp only
      by_cases g : hi.1 < v.1
      · rw [if_pos g, if_pos (by linarith)]
      · rw [if_neg g, if_neg (by linarith)]
    · dsimp only
      by_cases g : hi.2 < v.2
      · rw [if_pos g, if_pos (by linarith)]
      · rw [if_neg g, if_neg (by linarith)]

theorem center_eq {H : ConvexHull2D} (h : H.vertices ≠ []) : ∃ x0 x1 y0 y1,
    Least H.vertices (·.1) x0 ∧ Least H.vertices (-·.1) (-x1) ∧ Least H.vertices (·.2) y0 ∧
      Least H.vertices (-·.2) (-y1) ∧ getConvexHullCenter (some H) = ((x0 + x1) / 2, (y0 + y1) / 2) := by
  obtain ⟨v, l, e⟩ := List.exists_cons_of_ne_nil h
  have one : ∀ f : Pt → ℝ, Least [v] f (f v) :=
    fun f => ⟨⟨v, by simp, rfl⟩, fun q hq => by rw [List.mem_singleton.mp hq]⟩
  obtain ⟨h1, h2, h3, h4⟩ := boxLoop_spec l [v] (v, v) (by simp) (one _) (one _) (one _) (one _)
  refine ⟨(boxLoop l (v, v)).1.1, (boxLoop l (v, v)).2.1, (boxLoop l (v, v)).1.2, (boxLoop l (v, v)).2.2,
    ?_, ?_, ?_, ?_, ?_⟩
  pick_goal 5
  · simp only [getConvexHullCenter, e]
    refine Prod.ext ?_ ?_
    · show ((boxLoop l (v, v)).1.1 + (boxLoop l (v, v)).2.1) * (1 / 2) =
        ((boxLoop l (v, v)).1.1 + (boxLoop l (v, v)).2.1) / 2
      ring
    · show ((boxLoop l (v, v)).1.2 + (boxLoop l (v, v)).2.2) * (1 / 2) =
        ((boxLoop l (v, v)).1.2 + (boxLoop l (v, v)).2.2) / 2
      ring
  · rw [e]; exact h1
  · rw [e]; exact h3
  · rw [e]; exact h2
  · rw [e]; exact h4

/-- A least value on the vertices is the least value on the hull, for affine functions. -/
theorem least_hull {S : List Pt} {c : ℝ × ℝ × ℝ} {m : ℝ} (h : ∀ q ∈ S, m ≤ aff c q) :
    ∀ q ∈ hullSet S, m ≤ aff c q := by
  have hc : Convex ℝ {q : Pt | m ≤ aff c q} := by
    intro x hx y hy a b ha hb hab
    have hx : m ≤ aff c x := hx
    have hy : m ≤ aff c y := hy
    show m ≤ aff c (a • x + b • y)
    rw [aff_combo c x y hab]
    have := mul_le_mul_of_nonneg_left hx ha
    have := mul_le_mul_of_nonneg_left hy hb
    have : m = a * m + b * m := by rw [← add_mul, hab, one_mul]
    linarith
  intro q hq
  exact convexHull_min h hc hq

/-- A point of the hull on the vertical line through the middle, below the middle. -/
theorem center_below {K : Set Pt} (hK : Convex ℝ K) {xm ym w hh : ℝ} {L R Q : Pt} (hL : L ∈ K) (hR : R ∈ K)
    (hQ : Q ∈ K) (_hw : 0 ≤ w) (hh0 : 0 ≤ hh) (L1 : L.1 = xm - w) (R1 : R.1 = xm + w) (Q2 : Q.2 = ym - hh)
    (Q1 : xm - w ≤ Q.1) (Q1' : Q.1 ≤ xm + w) (L2 : L.2 ≤ ym + hh) (R2 : R.2 ≤ ym + hh) :
    ∃ y, (xm, y) ∈ K ∧ y ≤ ym := by
  have combo : ∀ T ∈ K, ∀ t : ℝ, 0 ≤ t → t ≤ 1 → Q.1 + t * (T.1 - Q.1) = xm → Q.2 + t * (T.2 - Q.2) ≤ ym →
      ∃ y, (xm, y) ∈ K ∧ y ≤ ym := by
    intro T hT t t0 t1 e1 e2
    refine ⟨_, ?_, e2⟩
    have := hK hQ hT (show 0 ≤ 1 - t by linarith) t0 (by ring)
    convert this using 1
    refine Prod.ext ?_ ?_
    · show xm = (1 - t) * Q.1 + t * T.1
      rw [← e1]; ring
    · show Q.2 + t * (T.2 - Q.2) = (1 - t) * Q.2 + t * T.2
      ring
  rcases lt_trichotomy Q.1 xm with g | g | g
  · have hd : 0 < R.1 - Q.1 := by linarith
    refine combo R hR ((xm - Q.1) / (R.1 - Q.1)) (div_nonneg (by linarith) hd.le) ((div_le_one hd).mpr (by linarith)) ?_ ?_
    · rw [div_mul_cancel₀ _ (ne_of_gt hd)]; ring
    · have k : (xm - Q.1) / (R.1 - Q.1) * (R.2 - Q.2) ≤ hh := by
        rw [div_mul_eq_mul_div, div_le_iff₀ hd]
        have a1 : (xm - Q.1) * (R.2 - Q.2) ≤ (xm - Q.1) * (2 * hh) :=
          mul_le_mul_of_nonneg_left (by linarith) (by linarith)
        have a2 : (xm - Q.1) * hh ≤ w * hh := mul_le_mul_of_nonneg_right (by linarith) hh0
        rw [R1]
        linarith
      linarith
  · exact ⟨Q.2, by rw [← g]; exact hQ, by linarith⟩
  · have hd : 0 < Q.1 - L.1 := by linarith
    refine combo L hL ((Q.1 - xm) / (Q.1 - L.1)) (div_nonneg (by linarith) hd.le) ((div_le_one hd).mpr (by linarith)) ?_ ?_
    · have : (Q.1 - xm) / (Q.1 - L.1) * (L.1 - Q.1) = -((Q.1 - xm) / (Q.1 - L.1) * (Q.1 - L.1)) := by ring
      rw [this, div_mul_cancel₀ _ (ne_of_gt hd)]; ring
    · have k : (Q.1 - xm) / (Q.1 - L.1) * (L.2 - Q.2) ≤ hh := by
        rw [div_mul_eq_mul_div, div_le_iff₀ hd]
        have a1 : (Q.1 - xm) * (L.2 - Q.2) ≤ (Q.1 - xm) * (2 * hh) :=
          mul_le_mul_of_nonneg_left (by linarith) (by linarith)
        have a2 : (Q.1 - xm) * hh ≤ w * hh := mul_le_mul_of_nonneg_right (by linarith) hh0
        rw [L1]
        linarith
      linarith

theorem abs_combo {u v a b c : ℝ} (ha : 0 ≤ a) (hb : 0 ≤ b) (hab : a + b = 1) (hu : |u| < c) (hv : |v| < c) :
    |a * u + b * v| < c := by
  have h1 : |a * u + b * v| ≤ a * |u| + b * |v| := by
    have := abs_add_le (a * u) (b * v)
    rw [abs_mul, abs_mul, abs_of_nonneg ha, abs_of_nonneg hb] at this
    exact this
  have e : c = a * c + b * c := by rw [← add_mul, hab, one_mul]
  rcases eq_or_lt_of_le ha with g | g
  · have hb1 : b = 1 := by linarith
    rw [← g, hb1] at h1 ⊢
    simp only [zero_mul, one_mul, zero_add] at h1 ⊢
    exact hv
  · have a1 := mul_lt_mul_of_pos_left hu g
    have a2 := mul_le_mul_of_nonneg_left hv.le hb
    linarith

end Simox.Hull
