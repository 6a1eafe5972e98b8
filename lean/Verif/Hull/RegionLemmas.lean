import Verif.Hull.ChainLemmas
import Mathlib.Analysis.Convex.Hull
import Mathlib.Tactic.FieldSimp

/-!
# Lemmas: the region between two chains is the convex hull
-/

namespace Simox.Hull

open Classical

/-- A finished lower chain (top first) from `b` to `t` below the points `P`. -/
structure Chain (P : List Pt) (b t : Pt) (s : List Pt) : Prop where
  last : s.getLast? = some b
  head : s.head? = some t
  sub : s ⊆ P
  incr : ∀ e ∈ edges s, e.1.1 < e.2.1
  turns : Turns s
  left : ∀ e ∈ edges s, ∀ q ∈ P, 0 ≤ isLeft e.1 e.2 q
  lt : b.1 < t.1

theorem build_head {s l : List Pt} {t : Pt} : (build s (l ++ [t])).head? = some t := by
  simp [build, List.foldl_append]

theorem chain_build {P : List Pt} {b t : Pt} {mids l : List Pt}
    (hl : l = mids.filter (fun q => ¬ isLeft b t q ≥ 0) ++ [t])
    (hs : (b :: (mids ++ [t])).Pairwise lexLt) (hm : ∀ m ∈ mids, m.1 < t.1) (hbt : b.1 < t.1)
    (hb : b ∈ P) (ht : t ∈ P) (hsub : mids ⊆ P)
    (hP : ∀ q ∈ P, q = b ∨ q ∈ mids ∨ q = t ∨ (b.1 ≤ q.1 ∧ q.1 ≤ t.1 ∧ 0 ≤ isLeft b t q)) :
    Chain P b t (build [b] l) := by
  have hs' := List.pairwise_cons.mp hs
  have hfl : l.Pairwise lexLt := by
    rw [hl]
    exact hs'.2.sublist (List.Sublist.append List.filter_sublist (List.Sublist.refl _))
  have hlm : ∀ x ∈ l, x ∈ mids ∨ x = t := by
    intro x hx
    rw [hl] at hx
    rcases List.mem_append.mp hx with h | h
    · exact Or.inl (List.mem_of_mem_filter h)
    · exact Or.inr (List.mem_singleton.mp h)
  have inv := inv_build l [b] [b] (inv_init b) hfl (by
    intro q hq p hp
    rw [List.mem_singleton.mp hq]
    refine hs'.1 p ?_
    rcases hlm p hp with h | rfl
    · exact List.mem_append_left _ h
    · simp)
  have htl : t ∈ l := by rw [hl]; simp
  have hx : ∀ q ∈ l.reverse ++ [b], q ≠ t → q.1 < t.1 := by
    intro q hq hne
    rcases List.mem_append.mp hq with h | h
    · rcases hlm q (List.mem_reverse.mp h) with h | h
      · exact hm q h
      · exact absurd h hne
    · rw [List.mem_singleton.mp h]; exact hbt
  have htQ : t ∈ l.reverse ++ [b] := by simp [htl]
  have hbQ : b ∈ l.reverse ++ [b] := by simp
  have incr : ∀ e ∈ edges (build [b] l), e.1.1 < e.2.1 := by
    intro e he
    have h1 := edges_lt inv.sorted he
    rcases h1 with h1 | ⟨h1, h2⟩
    · exact h1
    · exfalso
      obtain ⟨m1, m2⟩ := edges_mem he
      have q1 := inv.sub m1
      have h3 := inv.left e he t htQ
      by_cases g : e.1 = t
      · have hle := inv.top e.2 (inv.sub m2) t (by rw [hl]; exact build_head)
        rcases hle with (k | ⟨_, k⟩) | k
        · rw [← g] at k; linarith
        · rw [← g] at k; linarith
        · rw [k, g] at h2; exact lt_irrefl _ h2
      · have g1 := hx e.1 q1 g
        unfold isLeft at h3
        rw [h1] at h3
        have := mul_pos (show 0 < t.1 - e.1.1 by linarith) (show 0 < e.2.2 - e.1.2 by linarith)
        rw [h1] at this
        linarith
  refine ⟨inv.last, by rw [hl]; exact build_head, ?_, incr, inv.turns, ?_, hbt⟩
  · intro x hx
    rcases List.mem_append.mp (inv.sub hx) with h | h
    · rcases hlm x (List.mem_reverse.mp h) with h | rfl
      · exact hsub h
      · exact ht
    · rw [List.mem_singleton.mp h]; exact hb
  · intro e he q hq
    have eb := inv.left e he b hbQ
    have et := inv.left e he t htQ
    rcases hP q hq with rfl | h | rfl | ⟨h1, h2, h3⟩
    · exact eb
    · by_cases g : isLeft b t q ≥ 0
      · refine left_above hbt ?_ (hm q h).le (incr e he).le eb et g
        exact lexLe_fst (Or.inl (hs'.1 q (List.mem_append_left _ h)))
      · refine inv.left e he q ?_
        rw [hl]
        simp only [List.reverse_append, List.mem_append, List.mem_reverse, List.mem_filter,
          decide_eq_true_eq]
        exact Or.inl (Or.inr ⟨h, g⟩)
    · exact et
    · exact left_above hbt h1 h2 (incr e he).le eb et h3

/-! ## Interpolation -/

theorem edges_cover : ∀ {s : List Pt} {b t : Pt} {x : ℝ}, s.getLast? = some b → s.head? = some t →
    b.1 ≤ x → x ≤ t.1 → b.1 < t.1 → ∃ e ∈ edges s, e.1.1 ≤ x ∧ x ≤ e.2.1 := by
  intro s
  induction s with
  | nil => intro b t x h; cases h
  | cons v l ih =>
    intro b t x hb ht h1 h2 h3
    simp only [List.head?_cons, Option.some.injEq] at ht
    subst ht
    cases l with
    | nil =>
      simp only [List.getLast?_singleton, Option.some.injEq] at hb
      subst hb
      exact absurd h3 (lt_irrefl _)
    | cons u r =>
      rw [List.getLast?_cons_cons] at hb
      by_cases g : u.1 ≤ x
      · exact ⟨(u, v), by simp [edges], g, h2⟩
      · have g' : x ≤ u.1 := le_of_lt (not_le.mp g)
        obtain ⟨e, he, k⟩ := ih hb rfl h1 g' (lt_of_le_of_lt h1 (not_le.mp g))
        exact ⟨e, edges_cons_subset _ _ he, k⟩

theorem mem_hull_combo {S : Set Pt} {x y : Pt} (hx : x ∈ convexHull ℝ S) (hy : y ∈ convexHull ℝ S) {c : ℝ}
    (h0 : 0 ≤ c) (h1 : c ≤ 1) :
    (x.1 + c * (y.1 - x.1), x.2 + c * (y.2 - x.2)) ∈ convexHull ℝ S := by
  have := (convex_convexHull ℝ S) hx hy (show 0 ≤ 1 - c by linarith) h0 (by ring)
  convert this using 1
  refine Prod.ext ?_ ?_
  · show x.1 + c * (y.1 - x.1) = (1 - c) * x.1 + c * y.1; ring
  · show x.2 + c * (y.2 - x.2) = (1 - c) * x.2 + c * y.2; ring

/-- Below every point over the chain there is a point of the hull. -/
theorem below {P : List Pt} {b t : Pt} {s : List Pt} (h : Chain P b t s) {p : Pt} (h1 : b.1 ≤ p.1)
    (h2 : p.1 ≤ t.1) (h3 : ∀ e ∈ edges s, 0 ≤ isLeft e.1 e.2 p) :
    ∃ y, (p.1, y) ∈ convexHull ℝ {q | q ∈ P} ∧ y ≤ p.2 := by
  obtain ⟨e, he, g1, g2⟩ := edges_cover h.last h.head h1 h2 h.lt
  obtain ⟨u, v⟩ := e
  have hi := h.incr _ he
  have hl := h3 _ he
  obtain ⟨m1, m2⟩ := edges_mem he
  dsimp only at g1 g2 hi hl m1 m2
  have hd : 0 < v.1 - u.1 := by linarith
  refine ⟨u.2 + (p.1 - u.1) / (v.1 - u.1) * (v.2 - u.2), ?_, ?_⟩
  · have := mem_hull_combo (subset_convexHull ℝ {q | q ∈ P} (h.sub m1))
      (subset_convexHull ℝ {q | q ∈ P} (h.sub m2)) (c := (p.1 - u.1) / (v.1 - u.1))
      (div_nonneg (by linarith) hd.le) ((div_le_one hd).mpr (by linarith))
    rw [div_mul_cancel₀ _ (ne_of_gt hd)] at this
    convert this using 2
    ring
  · unfold isLeft at hl
    rw [div_mul_eq_mul_div]
    have : (p.1 - u.1) * (v.2 - u.2) / (v.1 - u.1) ≤ p.2 - u.2 := by
      rw [div_le_iff₀ hd]; linarith
    linarith

/-! ## Rotation by 180 degrees -/

/-- The point reflection. -/
def neg (p : Pt) : Pt := (-p.1, -p.2)

theorem neg_neg' (p : Pt) : neg (neg p) = p := by simp [neg]

theorem isLeft_neg (a b c : Pt) : isLeft (neg a) (neg b) (neg c) = isLeft a b c := by
  unfold isLeft neg; ring

theorem edges_map_neg : ∀ (s : List Pt), edges (s.map neg) = (edges s).map fun e => (neg e.1, neg e.2)
  | [] => rfl
  | [_] => rfl
  | _ :: u :: l => by
    have := edges_map_neg (u :: l)
    simp only [List.map_cons] at this
    simp only [List.map_cons, edges, this]

theorem pops_map_neg (p : Pt) : ∀ (s : List Pt), pops (neg p) (s.map neg) = (pops p s).map neg
  | [] => rfl
  | [_] => rfl
  | t :: u :: l => by
    have := pops_map_neg p (u :: l)
    simp only [List.map_cons] at this
    simp only [List.map_cons, pops, isLeft_neg, this]
    by_cases h : isLeft u t p > 0
    · rw [if_pos h, if_pos h]; rfl
    · rw [if_neg h, if_neg h]

theorem build_map_neg : ∀ (l s : List Pt), build (s.map neg) (l.map neg) = (build s l).map neg
  | [], _ => rfl
  | p :: l, s => by
    have := build_map_neg l (p :: pops p s)
    simp only [build, List.map_cons, List.foldl_cons] at this ⊢
    rw [pops_map_neg]
    exact this

/-- A finished upper chain from `b` on the right to `t` on the left above the points `P`. -/
def UpChain (P : List Pt) (b t : Pt) (s : List Pt) : Prop := Chain (P.map neg) (neg b) (neg t) (s.map neg)

theorem UpChain.left' {P : List Pt} {b t : Pt} {s : List Pt} (h : UpChain P b t s) :
    ∀ e ∈ edges s, ∀ q ∈ P, 0 ≤ isLeft e.1 e.2 q := by
  intro e he q hq
  have := h.left (neg e.1, neg e.2) (by rw [edges_map_neg]; exact List.mem_map_of_mem he) (neg q)
    (List.mem_map_of_mem hq)
  rw [isLeft_neg] at this
  exact this

theorem UpChain.incr' {P : List Pt} {b t : Pt} {s : List Pt} (h : UpChain P b t s) :
    ∀ e ∈ edges s, e.2.1 < e.1.1 := by
  intro e he
  have := h.incr (neg e.1, neg e.2) (by rw [edges_map_neg]; exact List.mem_map_of_mem he)
  simp only [neg] at this
  linarith

theorem UpChain.sub' {P : List Pt} {b t : Pt} {s : List Pt} (h : UpChain P b t s) : s ⊆ P := by
  intro x hx
  have := h.sub (List.mem_map_of_mem (f := neg) hx)
  obtain ⟨y, hy, e⟩ := List.mem_map.mp this
  have : y = x := by rw [← neg_neg' y, e, neg_neg']
  rw [← this]; exact hy

theorem UpChain.last' {P : List Pt} {b t : Pt} {s : List Pt} (h : UpChain P b t s) : s.getLast? = some b := by
  have := h.last
  rw [List.getLast?_map] at this
  cases hs : s.getLast? with
  | none => rw [hs] at this; cases this
  | some x =>
    rw [hs] at this
    simp only [Option.map_some, Option.some.injEq] at this
    rw [← neg_neg' x, this, neg_neg']

theorem UpChain.head' {P : List Pt} {b t : Pt} {s : List Pt} (h : UpChain P b t s) : s.head? = some t := by
  have := h.head
  rw [List.head?_map] at this
  cases hs : s.head? with
  | none => rw [hs] at this; cases this
  | some x =>
    rw [hs] at this
    simp only [Option.map_some, Option.some.injEq] at this
    rw [← neg_neg' x, this, neg_neg']

theorem turns_map_neg : ∀ (s : List Pt), Turns (s.map neg) ↔ Turns s
  | [] => Iff.rfl
  | [_] => Iff.rfl
  | [_, _] => Iff.rfl
  | w :: v :: u :: l => by
    have := turns_map_neg (v :: u :: l)
    simp only [List.map_cons] at this
    simp only [List.map_cons, Turns, isLeft_neg, this]

theorem UpChain.turns' {P : List Pt} {b t : Pt} {s : List Pt} (h : UpChain P b t s) : Turns s :=
  (turns_map_neg s).mp h.turns

theorem hull_neg {P : List Pt} {x : Pt} (h : x ∈ convexHull ℝ {q | q ∈ P.map neg}) :
    neg x ∈ convexHull ℝ {q | q ∈ P} := by
  have hsub : {q : Pt | q ∈ P.map neg} ⊆ {x | neg x ∈ convexHull ℝ {q | q ∈ P}} := by
    intro y hy
    obtain ⟨z, hz, rfl⟩ := List.mem_map.mp hy
    show neg (neg z) ∈ convexHull ℝ {q | q ∈ P}
    rw [neg_neg']
    exact subset_convexHull ℝ _ hz
  have hc : Convex ℝ {x | neg x ∈ convexHull ℝ {q | q ∈ P}} := by
    intro x hx y hy a b ha hb hab
    have := (convex_convexHull ℝ {q : Pt | q ∈ P}) hx hy ha hb hab
    show neg (a • x + b • y) ∈ convexHull ℝ {q | q ∈ P}
    convert this using 1
    refine Prod.ext ?_ ?_
    · show -(a * x.1 + b * y.1) = a * (-x.1) + b * (-y.1); ring
    · show -(a * x.2 + b * y.2) = a * (-x.2) + b * (-y.2); ring
  exact convexHull_min hsub hc h

/-- Above every point under the upper chain there is a point of the hull. -/
theorem above {P : List Pt} {b t : Pt} {s : List Pt} (h : UpChain P b t s) {p : Pt} (h1 : t.1 ≤ p.1)
    (h2 : p.1 ≤ b.1) (h3 : ∀ e ∈ edges s, 0 ≤ isLeft e.1 e.2 p) :
    ∃ y, (p.1, y) ∈ convexHull ℝ {q | q ∈ P} ∧ p.2 ≤ y := by
  obtain ⟨y, hy, hle⟩ := below h (p := neg p) (by simp only [neg]; linarith) (by simp only [neg]; linarith) (by
    intro e he
    rw [edges_map_neg] at he
    obtain ⟨e', he', rfl⟩ := List.mem_map.mp he
    rw [isLeft_neg]
    exact h3 e' he')
  refine ⟨-y, ?_, ?_⟩
  · have := hull_neg hy
    simpa [neg] using this
  · simp only [neg] at hle; linarith

/-! ## The region -/

/-- The points between the chains. -/
structure Region (b1 t1 : Pt) (s1 s2 : List Pt) (p : Pt) : Prop where
  lo : b1.1 ≤ p.1
  hi : p.1 ≤ t1.1
  lower : ∀ e ∈ edges s1, 0 ≤ isLeft e.1 e.2 p
  upper : ∀ e ∈ edges s2, 0 ≤ isLeft e.1 e.2 p

theorem isLeft_affine (u v x y : Pt) {a b : ℝ} (h : a + b = 1) :
    isLeft u v (a • x + b • y) = a * isLeft u v x + b * isLeft u v y := by
  have e1 : (a • x + b • y : Pt).1 = a * x.1 + b * y.1 := rfl
  have e2 : (a • x + b • y : Pt).2 = a * x.2 + b * y.2 := rfl
  have hb : b = 1 - a := by linarith
  unfold isLeft
  rw [e1, e2, hb]
  ring

theorem region_iff {P : List Pt} {b1 t1 b2 t2 : Pt} {s1 s2 : List Pt} (h1 : Chain P b1 t1 s1)
    (h2 : UpChain P b2 t2 s2) (hl : t2.1 = b1.1) (hr : b2.1 = t1.1)
    (hP : ∀ q ∈ P, b1.1 ≤ q.1 ∧ q.1 ≤ t1.1) (p : Pt) :
    Region b1 t1 s1 s2 p ↔ p ∈ convexHull ℝ {q | q ∈ P} := by
  constructor
  · intro h
    obtain ⟨y1, m1, l1⟩ := below h1 h.lo h.hi h.lower
    obtain ⟨y2, m2, l2⟩ := above h2 (by rw [hl]; exact h.lo) (by rw [hr]; exact h.hi) h.upper
    rcases eq_or_lt_of_le (le_trans l1 l2) with e | e
    · have : p = (p.1, y1) := Prod.ext rfl (le_antisymm (by rw [e]; exact l2) l1)
      rw [this]; exact m1
    · have hd : 0 < y2 - y1 := by linarith
      have := mem_hull_combo m1 m2 (c := (p.2 - y1) / (y2 - y1)) (div_nonneg (by linarith) hd.le)
        ((div_le_one hd).mpr (by linarith))
      dsimp only at this
      rw [div_mul_cancel₀ _ (ne_of_gt hd)] at this
      convert this using 1
      refine Prod.ext ?_ ?_
      · show p.1 = p.1 + _ * (p.1 - p.1); ring
      · show p.2 = y1 + (p.2 - y1); ring
  · intro h
    have hsub : {q : Pt | q ∈ P} ⊆ {p | Region b1 t1 s1 s2 p} := by
      intro q hq
      exact ⟨(hP q hq).1, (hP q hq).2, fun e he => h1.left e he q hq, fun e he => h2.left' e he q hq⟩
    have hc : Convex ℝ {p | Region b1 t1 s1 s2 p} := by
      intro x hx' y hy' a b ha hb hab
      have hx : Region b1 t1 s1 s2 x := hx'
      have hy : Region b1 t1 s1 s2 y := hy'
      have e1 : (a • x + b • y : Pt).1 = a * x.1 + b * y.1 := rfl
      refine ⟨?_, ?_, ?_, ?_⟩
      · rw [e1]
        have k1 := mul_le_mul_of_nonneg_left hx.lo ha
        have k2 := mul_le_mul_of_nonneg_left hy.lo hb
        have : a * b1.1 + b * b1.1 = b1.1 := by rw [← add_mul, hab, one_mul]
        linarith
      · rw [e1]
        have k1 := mul_le_mul_of_nonneg_left hx.hi ha
        have k2 := mul_le_mul_of_nonneg_left hy.hi hb
        have : a * t1.1 + b * t1.1 = t1.1 := by rw [← add_mul, hab, one_mul]
        linarith
      · intro e he
        rw [isLeft_affine _ _ _ _ hab]
        exact add_nonneg (mul_nonneg ha (hx.lower e he)) (mul_nonneg hb (hy.lower e he))
      · intro e he
        rw [isLeft_affine _ _ _ _ hab]
        exact add_nonneg (mul_nonneg ha (hx.upper e he)) (mul_nonneg hb (hy.upper e he))
    exact convexHull_min hsub hc h

end Simox.Hull
