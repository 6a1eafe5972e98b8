import Verif.Hull.RegionLemmas

/-!
# Lemmas: the test for a point over the edges
-/

namespace Simox.Hull

open Classical

/-- The coordinates of `p` are between those of `q` and `r`. -/
def InBox (q r p : Pt) : Prop := (p.1 - q.1) * (p.1 - r.1) ≤ 0 ∧ (p.2 - q.2) * (p.2 - r.2) ≤ 0

/-- `insideLoop` on edges. -/
noncomputable def insideE (p : Pt) : List (Pt × Pt) → Bool
  | [] => true
  | e :: rest =>
    if isLeft e.1 e.2 p ≤ 0 then
      if isLeft e.1 e.2 p = 0 then
        if (p.1 - e.1.1) * (p.1 - e.2.1) > 0 then false
        else if (p.2 - e.1.2) * (p.2 - e.2.2) > 0 then false
        else true
      else false
    else insideE p rest

theorem insideLoop_eq (vs : List Pt) (p : Pt) : ∀ segs : List (Nat × Nat),
    insideLoop vs p segs = insideE p (segs.map fun s => (at' vs s.1, at' vs s.2))
  | [] => rfl
  | s :: rest => by
    simp only [insideLoop, List.map_cons, insideE, isLeft, insideLoop_eq vs p rest]

theorem insideE_of {p : Pt} : ∀ {es : List (Pt × Pt)},
    (∀ e ∈ es, 0 ≤ isLeft e.1 e.2 p ∧ (isLeft e.1 e.2 p = 0 → InBox e.1 e.2 p)) → insideE p es = true := by
  intro es
  induction es with
  | nil => intro _; rfl
  | cons e es ih =>
    intro h
    obtain ⟨h1, h2⟩ := h e (by simp)
    unfold insideE
    by_cases g : isLeft e.1 e.2 p = 0
    · obtain ⟨b1, b2⟩ := h2 g
      rw [if_pos (le_of_eq g), if_pos g, if_neg (not_lt.mpr b1), if_neg (not_lt.mpr b2)]
    · rw [if_neg (not_le.mpr (lt_of_le_of_ne h1 (Ne.symm g)))]
      exact ih fun e he => h e (List.mem_cons_of_mem _ he)

theorem of_insideE {p : Pt} : ∀ {es : List (Pt × Pt)}, insideE p es = true →
    (∃ e ∈ es, isLeft e.1 e.2 p = 0 ∧ InBox e.1 e.2 p) ∨ ∀ e ∈ es, 0 < isLeft e.1 e.2 p := by
  intro es
  induction es with
  | nil => intro _; right; intro e he; cases he
  | cons e es ih =>
    intro h
    unfold insideE at h
    by_cases g : isLeft e.1 e.2 p ≤ 0
    · rw [if_pos g] at h
      by_cases g0 : isLeft e.1 e.2 p = 0
      · rw [if_pos g0] at h
        by_cases g1 : (p.1 - e.1.1) * (p.1 - e.2.1) > 0
        · rw [if_pos g1] at h; cases h
        · rw [if_neg g1] at h
          by_cases g2 : (p.2 - e.1.2) * (p.2 - e.2.2) > 0
          · rw [if_pos g2] at h; cases h
          · exact Or.inl ⟨e, by simp, g0, not_lt.mp g1, not_lt.mp g2⟩
      · rw [if_neg g0] at h; cases h
    · rw [if_neg g] at h
      rcases ih h with ⟨e', he', k⟩ | k
      · exact Or.inl ⟨e', List.mem_cons_of_mem _ he', k⟩
      · right
        intro e' he'
        rcases List.mem_cons.mp he' with rfl | he'
        · exact not_le.mp g
        · exact k e' he'

/-- A point on the line of a segment and in its box is on the segment. -/
theorem on_segment {S : Set Pt} {q r p : Pt} (hq : q ∈ S) (hr : r ∈ S) (h : isLeft q r p = 0) (hb : InBox q r p) :
    p ∈ convexHull ℝ S := by
  have mq := subset_convexHull ℝ S hq
  have mr := subset_convexHull ℝ S hr
  obtain ⟨b1, b2⟩ := hb
  unfold isLeft at h
  have frac : ∀ a x y : ℝ, (a - x) * (a - y) ≤ 0 → x ≠ y → 0 ≤ (a - x) / (y - x) ∧ (a - x) / (y - x) ≤ 1 := by
    intro a x y hxy hne
    rcases lt_or_gt_of_ne hne with g | g
    · have g' : 0 < y - x := by linarith
      have k1 : 0 ≤ a - x := by
        by_contra hc
        have := mul_pos_of_neg_of_neg (show a - x < 0 by linarith) (show a - y < 0 by linarith)
        linarith
      have k2 : a - y ≤ 0 := by
        by_contra hc
        have := mul_pos (show 0 < a - x by linarith) (show 0 < a - y by linarith)
        linarith
      exact ⟨div_nonneg k1 g'.le, (div_le_one g').mpr (by linarith)⟩
    · have g' : 0 < x - y := by linarith
      have k1 : a - x ≤ 0 := by
        by_contra hc
        have := mul_pos (show 0 < a - x by linarith) (show 0 < a - y by linarith)
        linarith
      have k2 : 0 ≤ a - y := by
        by_contra hc
        have := mul_pos_of_neg_of_neg (show a - x < 0 by linarith) (show a - y < 0 by linarith)
        linarith
      have e : (a - x) / (y - x) = (x - a) / (x - y) := by
        rw [← neg_sub x a, ← neg_sub x y, neg_div_neg_eq]
      rw [e]
      exact ⟨div_nonneg (by linarith) g'.le, (div_le_one g').mpr (by linarith)⟩
  by_cases hx : q.1 = r.1
  · have hp : p.1 = q.1 := by
      rw [← hx] at b1
      have : (p.1 - q.1) = 0 := by
        rcases lt_trichotomy (p.1 - q.1) 0 with k | k | k
        · have := mul_pos_of_neg_of_neg k k; linarith
        · exact k
        · have := mul_pos k k; linarith
      linarith
    by_cases hy : q.2 = r.2
    · have hp2 : p.2 = q.2 := by
        rw [← hy] at b2
        rcases lt_trichotomy (p.2 - q.2) 0 with k | k | k
        · have := mul_pos_of_neg_of_neg k k; linarith
        · linarith
        · have := mul_pos k k; linarith
      rw [show p = q from Prod.ext hp hp2]
      exact mq
    · obtain ⟨c0, c1⟩ := frac _ _ _ b2 hy
      have := mem_hull_combo mq mr c0 c1
      rw [div_mul_cancel₀ _ (fun k => hy (by linarith)), ← hx] at this
      convert this using 1
      refine Prod.ext ?_ ?_
      · show p.1 = q.1 + _ * (q.1 - q.1); rw [hp]; ring
      · show p.2 = q.2 + (p.2 - q.2); ring
  · obtain ⟨c0, c1⟩ := frac _ _ _ b1 hx
    have hne : r.1 - q.1 ≠ 0 := fun k => hx (by linarith)
    have := mem_hull_combo mq mr c0 c1
    rw [div_mul_cancel₀ _ hne] at this
    convert this using 1
    refine Prod.ext ?_ ?_
    · show p.1 = q.1 + (p.1 - q.1); ring
    · show p.2 = q.2 + (p.1 - q.1) / (r.1 - q.1) * (r.2 - q.2)
      rw [div_mul_eq_mul_div]
      have : (p.1 - q.1) * (r.2 - q.2) / (r.1 - q.1) = p.2 - q.2 := by
        rw [div_eq_iff hne]; linarith
      linarith

/-! ## Edges of a chain -/

theorem edge_split : ∀ {s : List Pt} {u v : Pt}, (u, v) ∈ edges s → ∃ a l, s = a ++ v :: u :: l := by
  intro s
  induction s with
  | nil => intro u v h; cases h
  | cons x l ih =>
    intro u v h
    cases l with
    | nil => cases h
    | cons y r =>
      simp only [edges, List.mem_cons, Prod.mk.injEq] at h
      rcases h with ⟨rfl, rfl⟩ | h
      · exact ⟨[], r, rfl⟩
      · obtain ⟨a, l', e⟩ := ih h
        exact ⟨x :: a, l', by rw [e]; rfl⟩

theorem edges_mid : ∀ (a : List Pt) (v u : Pt) (l : List Pt), (u, v) ∈ edges (a ++ v :: u :: l)
  | [], _, _, _ => by simp [edges]
  | x :: a, v, u, l => edges_cons_subset x _ (edges_mid a v u l)

theorem turns_mid : ∀ (a : List Pt) {w v u : Pt} {l : List Pt}, Turns (a ++ w :: v :: u :: l) → 0 < isLeft u v w
  | [], _, _, _, _, h => h.1
  | _ :: a, _, _, _, _, h => turns_mid a h.tail

theorem edge_next {s : List Pt} {u v : Pt} (ht : Turns s) (h : (u, v) ∈ edges s) :
    s.head? = some v ∨ ∃ w, (v, w) ∈ edges s ∧ 0 < isLeft u v w := by
  obtain ⟨a, l, e⟩ := edge_split h
  rcases List.eq_nil_or_concat a with rfl | ⟨a', w, rfl⟩
  · left; rw [e]; rfl
  · right
    have e' : s = a' ++ w :: v :: u :: l := by rw [e]; simp
    refine ⟨w, ?_, ?_⟩
    · rw [e']; exact edges_mid a' w v _
    · rw [e'] at ht; exact turns_mid a' ht

theorem edge_prev {s : List Pt} {u v : Pt} (ht : Turns s) (h : (u, v) ∈ edges s) :
    s.getLast? = some u ∨ ∃ w, (w, u) ∈ edges s ∧ 0 < isLeft w u v := by
  obtain ⟨a, l, e⟩ := edge_split h
  cases l with
  | nil => left; rw [e]; simp
  | cons x l =>
    right
    have e' : s = (a ++ [v]) ++ u :: x :: l := by rw [e]; simp
    refine ⟨x, ?_, ?_⟩
    · rw [e']; exact edges_mid _ u x _
    · rw [e] at ht; exact turns_mid a ht

/-- On the line of an edge, left of all edges, and over the chain: on the edge. -/
theorem chain_box {P : List Pt} {b t : Pt} {s : List Pt} (h : Chain P b t s) {p : Pt} (h1 : b.1 ≤ p.1)
    (h2 : p.1 ≤ t.1) (h3 : ∀ e ∈ edges s, 0 ≤ isLeft e.1 e.2 p) {e : Pt × Pt} (he : e ∈ edges s)
    (h0 : isLeft e.1 e.2 p = 0) : InBox e.1 e.2 p := by
  obtain ⟨u, v⟩ := e
  have hi := h.incr _ he
  dsimp only at hi h0 ⊢
  have k1 : p.1 ≤ v.1 := by
    rcases edge_next h.turns he with g | ⟨w, g1, g2⟩
    · rw [h.head] at g
      injection g with g
      rw [← g]; exact h2
    · by_contra hc
      have h4 := h3 _ g1
      dsimp only at h4
      have e : isLeft v w p * (v.1 - u.1) = -(p.1 - v.1) * isLeft u v w + (w.1 - v.1) * isLeft u v p := by
        unfold isLeft; ring
      rw [h0] at e
      have a1 := mul_nonneg h4 (show 0 ≤ v.1 - u.1 by linarith)
      have a2 := mul_pos (show 0 < p.1 - v.1 by linarith) g2
      linarith
  have k2 : u.1 ≤ p.1 := by
    rcases edge_prev h.turns he with g | ⟨w, g1, g2⟩
    · rw [h.last] at g
      injection g with g
      rw [← g]; exact h1
    · by_contra hc
      have h4 := h3 _ g1
      dsimp only at h4
      have e : isLeft w u p * (v.1 - u.1) = (p.1 - u.1) * isLeft w u v + (u.1 - w.1) * isLeft u v p := by
        unfold isLeft; ring
      rw [h0] at e
      have a1 := mul_nonneg h4 (show 0 ≤ v.1 - u.1 by linarith)
      have a2 := mul_pos (show 0 < u.1 - p.1 by linarith) g2
      linarith
  refine ⟨mul_nonpos_of_nonneg_of_nonpos (by linarith) (by linarith), ?_⟩
  have hd : 0 < v.1 - u.1 := by linarith
  have e : (p.2 - u.2) * (p.2 - v.2) * ((v.1 - u.1) * (v.1 - u.1)) =
      (isLeft u v p + (p.1 - u.1) * (v.2 - u.2)) * (isLeft u v p + (p.1 - v.1) * (v.2 - u.2)) := by
    unfold isLeft; ring
  rw [h0, zero_add, zero_add] at e
  have a : (p.1 - u.1) * (v.2 - u.2) * ((p.1 - v.1) * (v.2 - u.2)) ≤ 0 := by
    have e' : (p.1 - u.1) * (v.2 - u.2) * ((p.1 - v.1) * (v.2 - u.2)) =
        ((p.1 - u.1) * (p.1 - v.1)) * ((v.2 - u.2) * (v.2 - u.2)) := by ring
    rw [e']
    exact mul_nonpos_of_nonpos_of_nonneg (mul_nonpos_of_nonneg_of_nonpos (by linarith) (by linarith))
      (mul_self_nonneg _)
  rw [← e] at a
  by_contra hc
  have := mul_pos (not_le.mp hc) (mul_pos hd hd)
  linarith

theorem upChain_box {P : List Pt} {b t : Pt} {s : List Pt} (h : UpChain P b t s) {p : Pt} (h1 : t.1 ≤ p.1)
    (h2 : p.1 ≤ b.1) (h3 : ∀ e ∈ edges s, 0 ≤ isLeft e.1 e.2 p) {e : Pt × Pt} (he : e ∈ edges s)
    (h0 : isLeft e.1 e.2 p = 0) : InBox e.1 e.2 p := by
  have := chain_box h (p := neg p) (by simp only [neg]; linarith) (by simp only [neg]; linarith) (by
    intro e he
    rw [edges_map_neg] at he
    obtain ⟨e', he', rfl⟩ := List.mem_map.mp he
    rw [isLeft_neg]
    exact h3 e' he') (e := (neg e.1, neg e.2)) (by rw [edges_map_neg]; exact List.mem_map_of_mem he)
    (by rw [isLeft_neg]; exact h0)
  obtain ⟨b1, b2⟩ := this
  simp only [neg] at b1 b2
  constructor
  · calc (p.1 - e.1.1) * (p.1 - e.2.1) = (-p.1 - -e.1.1) * (-p.1 - -e.2.1) := by ring
      _ ≤ 0 := b1
  · calc (p.2 - e.1.2) * (p.2 - e.2.2) = (-p.2 - -e.1.2) * (-p.2 - -e.2.2) := by ring
      _ ≤ 0 := b2

/-- The first and the last edge of a chain. -/
theorem head_edge {s : List Pt} {b t : Pt} (hl : s.getLast? = some b) (hh : s.head? = some t) (hne : b ≠ t) :
    ∃ a, (a, t) ∈ edges s := by
  match s with
  | [] => cases hl
  | [x] =>
    simp only [List.getLast?_singleton, Option.some.injEq] at hl
    simp only [List.head?_cons, Option.some.injEq] at hh
    exact absurd (hl.symm.trans hh) hne
  | x :: y :: r =>
    simp only [List.head?_cons, Option.some.injEq] at hh
    subst hh
    exact ⟨y, by simp [edges]⟩

theorem last_edge : ∀ {s : List Pt} {b t : Pt}, s.getLast? = some b → s.head? = some t → b ≠ t →
    ∃ a, (b, a) ∈ edges s := by
  intro s
  induction s with
  | nil => intro b t h; cases h
  | cons x l ih =>
    intro b t hl hh hne
    simp only [List.head?_cons, Option.some.injEq] at hh
    subst hh
    cases l with
    | nil =>
      simp only [List.getLast?_singleton, Option.some.injEq] at hl
      exact absurd hl.symm hne
    | cons y r =>
      rw [List.getLast?_cons_cons] at hl
      by_cases g : b = y
      · subst g; exact ⟨x, by simp [edges]⟩
      · obtain ⟨a, ha⟩ := ih hl rfl g
        exact ⟨a, edges_cons_subset _ _ ha⟩

/-- Strictly left of two edges at a corner on the left. -/
theorem corner {B a c p : Pt} (h1 : B.1 < a.1) (h2 : B.1 < c.1) (h3 : 0 ≤ isLeft B a c) (h4 : 0 < isLeft B a p)
    (h5 : 0 < isLeft c B p) : B.1 < p.1 := by
  have e : isLeft B a p * (c.1 - B.1) + isLeft c B p * (a.1 - B.1) = (p.1 - B.1) * isLeft B a c := by
    unfold isLeft; ring
  have k1 := mul_pos h4 (show 0 < c.1 - B.1 by linarith)
  have k2 := mul_pos h5 (show 0 < a.1 - B.1 by linarith)
  by_contra hc
  have := mul_nonpos_of_nonpos_of_nonneg (show p.1 - B.1 ≤ 0 by linarith) h3
  linarith

/-! ## The test -/

/-- The edges of the whole boundary: two chains, and the vertical edges if there are any. -/
structure Boundary (b1 t1 b2 t2 : Pt) (s1 s2 : List Pt) (E : List (Pt × Pt)) : Prop where
  mem : ∀ e ∈ E, e ∈ edges s1 ∨ e ∈ edges s2 ∨ (e = (t1, b2) ∧ t1 ≠ b2) ∨ (e = (t2, b1) ∧ t2 ≠ b1)
  lower : edges s1 ⊆ E
  upper : edges s2 ⊆ E
  right : t1 ≠ b2 → (t1, b2) ∈ E
  left : t2 ≠ b1 → (t2, b1) ∈ E

theorem inside_iff {P : List Pt} {b1 t1 b2 t2 : Pt} {s1 s2 : List Pt} {E : List (Pt × Pt)}
    (h1 : Chain P b1 t1 s1) (h2 : UpChain P b2 t2 s2) (hE : Boundary b1 t1 b2 t2 s1 s2 E)
    (hl : t2.1 = b1.1) (hr : b2.1 = t1.1) (hl2 : b1.2 ≤ t2.2) (hr2 : t1.2 ≤ b2.2)
    (hP : ∀ q ∈ P, b1.1 ≤ q.1 ∧ q.1 ≤ t1.1) (p : Pt) :
    insideE p E = true ↔ p ∈ convexHull ℝ {q | q ∈ P} := by
  have hlt := h1.lt
  have ne1 : b1 ≠ t1 := fun g => by rw [g] at hlt; exact lt_irrefl _ hlt
  have ne2 : b2 ≠ t2 := fun g => by
    have : b2.1 = t2.1 := by rw [g]
    linarith
  have mb1 : b1 ∈ P := h1.sub (List.mem_of_getLast? h1.last)
  have mt1 : t1 ∈ P := h1.sub (List.mem_of_head? h1.head)
  have mb2 : b2 ∈ P := h2.sub' (List.mem_of_getLast? h2.last')
  have mt2 : t2 ∈ P := h2.sub' (List.mem_of_head? h2.head')
  obtain ⟨a1, ha1⟩ := last_edge h1.last h1.head ne1
  obtain ⟨c1, hc1⟩ := head_edge h1.last h1.head ne1
  obtain ⟨a2, ha2⟩ := last_edge h2.last' h2.head' ne2
  obtain ⟨c2, hc2⟩ := head_edge h2.last' h2.head' ne2
  have ia1 := h1.incr _ ha1
  have ic1 := h1.incr _ hc1
  have ia2 := h2.incr' _ ha2
  have ic2 := h2.incr' _ hc2
  dsimp only at ia1 ic1 ia2 ic2
  constructor
  · intro h
    rcases of_insideE h with ⟨e, he, g1, g2⟩ | g
    · refine on_segment (q := e.1) (r := e.2) ?_ ?_ g1 g2
      · rcases hE.mem e he with k | k | ⟨k, _⟩ | ⟨k, _⟩
        · exact h1.sub (edges_mem k).1
        · exact h2.sub' (edges_mem k).1
        · rw [k]; exact mt1
        · rw [k]; exact mt2
      · rcases hE.mem e he with k | k | ⟨k, _⟩ | ⟨k, _⟩
        · exact h1.sub (edges_mem k).2
        · exact h2.sub' (edges_mem k).2
        · rw [k]; exact mb2
        · rw [k]; exact mb1
    · rw [← region_iff h1 h2 hl hr hP]
      refine ⟨?_, ?_, fun e he => (g e (hE.lower he)).le, fun e he => (g e (hE.upper he)).le⟩
      · by_cases k : t2 = b1
        · subst k
          refine (corner ia1 ic2 ?_ (g _ (hE.lower ha1)) (g _ (hE.upper hc2))).le
          exact h1.left _ ha1 _ (h2.sub' (edges_mem hc2).1)
        · have := g _ (hE.left k)
          unfold isLeft at this
          dsimp only at this
          rw [hl] at this
          have hy : b1.2 < t2.2 := by
            rcases lt_or_eq_of_le hl2 with y | y
            · exact y
            · exact absurd (Prod.ext hl y.symm) k
          have k' : 0 < (p.1 - b1.1) * (t2.2 - b1.2) := by linarith
          have := (mul_pos_iff_of_pos_right (show 0 < t2.2 - b1.2 by linarith)).mp k'
          linarith
      · by_cases k : t1 = b2
        · subst k
          have := corner (B := neg t1) (a := neg a2) (c := neg c1) (p := neg p) (by simp only [neg]; linarith)
            (by simp only [neg]; linarith)
            (by rw [isLeft_neg]; exact h2.left' _ ha2 _ (h1.sub (edges_mem hc1).1))
            (by rw [isLeft_neg]; exact g _ (hE.upper ha2)) (by rw [isLeft_neg]; exact g _ (hE.lower hc1))
          simp only [neg] at this
          linarith
        · have := g _ (hE.right k)
          unfold isLeft at this
          dsimp only at this
          rw [hr] at this
          have hy : t1.2 < b2.2 := by
            rcases lt_or_eq_of_le hr2 with y | y
            · exact y
            · exact absurd (Prod.ext hr.symm y) k
          have k' : 0 < (t1.1 - p.1) * (b2.2 - t1.2) := by linarith
          have := (mul_pos_iff_of_pos_right (show 0 < b2.2 - t1.2 by linarith)).mp k'
          linarith
  · intro h
    have R := (region_iff h1 h2 hl hr hP p).mpr h
    refine insideE_of ?_
    intro e he
    rcases hE.mem e he with k | k | ⟨rfl, k⟩ | ⟨rfl, k⟩
    · exact ⟨R.lower e k, chain_box h1 R.lo R.hi R.lower k⟩
    · exact ⟨R.upper e k, upChain_box h2 (by rw [hl]; exact R.lo) (by rw [hr]; exact R.hi) R.upper k⟩
    · have hy : t1.2 < b2.2 := by
        rcases lt_or_eq_of_le hr2 with y | y
        · exact y
        · exact absurd (Prod.ext hr.symm y) k
      have ev : isLeft t1 b2 p = (t1.1 - p.1) * (b2.2 - t1.2) := by unfold isLeft; rw [hr]; ring
      dsimp only
      rw [ev]
      refine ⟨mul_nonneg (by linarith [R.hi]) (by linarith), ?_⟩
      intro h0
      have hx : p.1 = t1.1 := by
        rcases mul_eq_zero.mp h0 with y | y <;> linarith
      have k1 := R.lower _ hc1
      have k2 := R.upper _ ha2
      unfold isLeft at k1 k2
      dsimp only at k1 k2
      rw [hx] at k1 k2
      have l1 : t1.2 ≤ p.2 := by
        have : 0 ≤ (p.2 - t1.2) * (t1.1 - c1.1) := by linarith
        have := nonneg_of_mul_nonneg_left this (by linarith)
        linarith
      have l2 : p.2 ≤ b2.2 := by
        rw [hr] at k2 ia2
        have : 0 ≤ (b2.2 - p.2) * (t1.1 - a2.1) := by linarith
        have := nonneg_of_mul_nonneg_left this (by linarith)
        linarith
      exact ⟨by rw [hx, hr]; simp, mul_nonpos_of_nonneg_of_nonpos (by linarith) (by linarith)⟩
    · have hy : b1.2 < t2.2 := by
        rcases lt_or_eq_of_le hl2 with y | y
        · exact y
        · exact absurd (Prod.ext hl y.symm) k
      have ev : isLeft t2 b1 p = (p.1 - b1.1) * (t2.2 - b1.2) := by unfold isLeft; rw [hl]; ring
      dsimp only
      rw [ev]
      refine ⟨mul_nonneg (by linarith [R.lo]) (by linarith), ?_⟩
      intro h0
      have hx : p.1 = b1.1 := by
        rcases mul_eq_zero.mp h0 with y | y <;> linarith
      have k1 := R.lower _ ha1
      have k2 := R.upper _ hc2
      unfold isLeft at k1 k2
      dsimp only at k1 k2
      rw [hx] at k1 k2
      have l1 : b1.2 ≤ p.2 := by
        have : 0 ≤ (p.2 - b1.2) * (a1.1 - b1.1) := by linarith
        have := nonneg_of_mul_nonneg_left this (by linarith)
        linarith
      have l2 : p.2 ≤ t2.2 := by
        rw [hl] at k2 ic2
        have : 0 ≤ (t2.2 - p.2) * (c2.1 - b1.1) := by linarith
        have := nonneg_of_mul_nonneg_left this (by linarith)
        linarith
      exact ⟨by rw [hx, hl]; simp, mul_nonpos_of_nonpos_of_nonneg (by linarith) (by linarith)⟩

end Simox.Hull
