import Verif.Hull.LoopLemmas

/-!
# Lemmas: the two chains as computed
-/

namespace Simox.Hull

open Classical

/-- The lower chain from `a0` to `b0`. -/
noncomputable def lowerOf (a0 b0 : Pt) (M : List Pt) : List Pt :=
  build [a0] ((M.filter fun q => ¬ isLeft a0 b0 q ≥ 0) ++ [b0])

/-- The upper chain from `bl` to `al`. -/
noncomputable def upperOf (bl al : Pt) (M : List Pt) : List Pt :=
  build [bl] ((M.reverse.filter fun q => ¬ isLeft bl al q ≥ 0) ++ [al])

/-- The layout of the sorted points. -/
structure Layout (P A M B A' A'' B' B'' : List Pt) (a0 al b0 bl : Pt) : Prop where
  eq : P = A ++ M ++ B
  a1 : A = a0 :: A''
  a2 : A = A' ++ [al]
  b1 : B = b0 :: B'
  b2 : B = B'' ++ [bl]
  sorted : P.Pairwise lexLt
  ax : ∀ a ∈ A, a.1 = a0.1
  mx : ∀ m ∈ M, a0.1 < m.1 ∧ m.1 < b0.1
  bx : ∀ b ∈ B, b.1 = b0.1
  lt : a0.1 < b0.1

section
variable {P A M B A' A'' B' B'' : List Pt} {a0 al b0 bl : Pt}

theorem Layout.lenA (h : Layout P A M B A' A'' B' B'' a0 al b0 bl) : A.length = A'.length + 1 := by
  rw [h.a2]; simp

theorem Layout.lenB (h : Layout P A M B A' A'' B' B'' a0 al b0 bl) : B.length = B''.length + 1 := by
  rw [h.b2]; simp

theorem Layout.lenP (h : Layout P A M B A' A'' B' B'' a0 al b0 bl) :
    P.length = A'.length + 1 + M.length + B''.length + 1 := by
  rw [h.eq]; simp only [List.length_append, h.lenA, h.lenB]; omega

theorem Layout.at0 (h : Layout P A M B A' A'' B' B'' a0 al b0 bl) : at' P 0 = a0 := by
  rw [h.eq, h.a1]; rfl

theorem Layout.atMinmax (h : Layout P A M B A' A'' B' B'' a0 al b0 bl) : at' P A'.length = al := by
  rw [h.eq, h.a2]
  have : A' ++ [al] ++ M ++ B = A' ++ al :: (M ++ B) := by simp
  rw [this, at'_append]

theorem Layout.atMaxmin (h : Layout P A M B A' A'' B' B'' a0 al b0 bl) : at' P (A'.length + 1 + M.length) = b0 := by
  have : A'.length + 1 + M.length = (A ++ M).length := by simp [h.lenA]
  rw [this, h.eq, h.b1, at'_append]

theorem Layout.atMaxmax (h : Layout P A M B A' A'' B' B'' a0 al b0 bl) : at' P (P.length - 1) = bl := by
  have : P.length - 1 = (A ++ M ++ B'').length := by
    rw [h.lenP]; simp only [List.length_append, h.lenA]; omega
  rw [this, h.eq, h.b2, ← List.append_assoc, at'_append]

theorem range'_last (s n : Nat) : List.range' s (n + 1) = List.range' s n ++ [s + n] := by
  rw [List.range'_concat, one_mul]

theorem Layout.lowerList (h : Layout P A M B A' A'' B' B'' a0 al b0 bl) :
    ((List.range' (A'.length + 1) (M.length + 1)).filter fun i =>
        ¬ (isLeft a0 b0 (at' P i) ≥ 0 ∧ i < A'.length + 1 + M.length)).map (at' P) =
      (M.filter fun q => ¬ isLeft a0 b0 q ≥ 0) ++ [b0] := by
  have hr := at'_range A M B
  rw [← h.eq, h.lenA] at hr
  rw [range'_last, List.filter_append, List.map_append]
  congr 1
  · rw [List.filter_congr (q := (fun q => decide (¬ isLeft a0 b0 q ≥ 0)) ∘ at' P), ← List.filter_map, hr]
    intro i hi
    have := (List.mem_range'_1.mp hi).2
    simp only [Function.comp, this, and_true]
  · rw [List.filter_cons_of_pos (by simp)]
    simp [h.atMaxmin]

theorem Layout.upperList (h : Layout P A M B A' A'' B' B'' a0 al b0 bl) :
    ((List.range' A'.length (M.length + 1)).reverse.filter fun i =>
        ¬ (isLeft bl al (at' P i) ≥ 0 ∧ i > A'.length)).map (at' P) =
      (M.reverse.filter fun q => ¬ isLeft bl al q ≥ 0) ++ [al] := by
  have hr := at'_range A M B
  rw [← h.eq, h.lenA] at hr
  rw [List.range'_succ, List.reverse_cons, List.filter_append, List.map_append]
  congr 1
  · rw [List.filter_congr (q := (fun q => decide (¬ isLeft bl al q ≥ 0)) ∘ at' P), ← List.filter_map,
      List.map_reverse, hr]
    intro i hi
    have := (List.mem_range'_1.mp (List.mem_reverse.mp hi)).1
    have : i > A'.length := by omega
    simp only [Function.comp, this, and_true]
  · rw [List.filter_cons_of_pos (by simp)]
    simp [h.atMinmax]

theorem build_ne {s l : List Pt} (h : s ≠ []) : build s l ≠ [] := by
  induction l generalizing s with
  | nil => exact h
  | cons p l ih => exact ih (s := p :: pops p s) (by simp)

theorem lowerOf_length (a0 b0 : Pt) (M : List Pt) : (lowerOf a0 b0 M).length ≤ M.length + 2 := by
  have h := build_length ((M.filter fun q => ¬ isLeft a0 b0 q ≥ 0) ++ [b0]) [a0]
  have := List.length_filter_le (fun q => decide (¬ isLeft a0 b0 q ≥ 0)) M
  simp only [List.length_append, List.length_cons, List.length_nil] at h
  unfold lowerOf
  omega

theorem upperOf_length (bl al : Pt) (M : List Pt) : (upperOf bl al M).length ≤ M.length + 2 := by
  have h := build_length ((M.reverse.filter fun q => ¬ isLeft bl al q ≥ 0) ++ [al]) [bl]
  have := List.length_filter_le (fun q => decide (¬ isLeft bl al q ≥ 0)) M.reverse
  simp only [List.length_append, List.length_cons, List.length_nil, List.length_reverse] at h this
  unfold upperOf
  omega

theorem Layout.lowerLoop (h : Layout P A M B A' A'' B' B'' a0 al b0 bl) :
    loop (lowerStep (P.length * 2) P 0 (A'.length + 1 + M.length))
      (List.range' (A'.length + 1) (M.length + 1)) [a0] = some (lowerOf a0 b0 M) := by
  have := loop_build (cap := P.length * 2) (rest := [])
    (C := fun i => isLeft a0 b0 (at' P i) ≥ 0 ∧ i < A'.length + 1 + M.length) (g := at' P)
    (f := lowerStep (P.length * 2) P 0 (A'.length + 1 + M.length)) (List.range' (A'.length + 1) (M.length + 1))
    (by intro s i _; simp only [lowerStep, h.at0, h.atMaxmin, List.length_nil]) [a0] (by simp) (by
      have := h.lenP
      simp only [List.length_cons, List.length_nil, List.length_range']
      omega)
  rw [List.append_nil, List.append_nil] at this
  refine this.trans ?_
  unfold lowerOf
  rw [← h.lowerList]
  congr!

theorem Layout.upperLoop (h : Layout P A M B A' A'' B' B'' a0 al b0 bl) {rest : List Pt}
    (hr : rest.length ≤ M.length + 2) :
    loop (upperStep (P.length * 2) P A'.length (P.length - 1) rest.length)
      (List.range' A'.length (M.length + 1)).reverse ([bl] ++ rest) = some (upperOf bl al M ++ rest) := by
  have := loop_build (cap := P.length * 2) (rest := rest)
    (C := fun i => isLeft bl al (at' P i) ≥ 0 ∧ i > A'.length) (g := at' P)
    (f := upperStep (P.length * 2) P A'.length (P.length - 1) rest.length)
    (List.range' A'.length (M.length + 1)).reverse
    (by intro s i _; simp only [upperStep, h.atMinmax, h.atMaxmax]; congr) [bl] (by simp) (by
      have := h.lenP
      simp only [List.length_cons, List.length_nil, List.length_range', List.length_reverse]
      omega)
  refine this.trans ?_
  unfold upperOf
  rw [← h.upperList]
  congr!

theorem lowerOf_head (a0 b0 : Pt) (M : List Pt) : lowerOf a0 b0 M = b0 :: (lowerOf a0 b0 M).tail := by
  have h : (lowerOf a0 b0 M).head? = some b0 := build_head
  cases hx : lowerOf a0 b0 M with
  | nil => rw [hx] at h; cases h
  | cons x l =>
    rw [hx] at h
    simp only [List.head?_cons, Option.some.injEq] at h
    rw [h]; rfl

theorem upperOf_head (bl al : Pt) (M : List Pt) : upperOf bl al M = al :: (upperOf bl al M).tail := by
  have h : (upperOf bl al M).head? = some al := build_head
  cases hx : upperOf bl al M with
  | nil => rw [hx] at h; cases h
  | cons x l =>
    rw [hx] at h
    simp only [List.head?_cons, Option.some.injEq] at h
    rw [h]; rfl

/-- The stack at the end. -/
theorem Layout.chains_eq (h : Layout P A M B A' A'' B' B'' a0 al b0 bl) :
    ∃ pre rest, ((pre = [] ∧ a0 = al) ∨ (pre = [a0] ∧ a0 ≠ al)) ∧
      ((rest = (lowerOf a0 b0 M).tail ∧ bl = b0) ∨ (rest = lowerOf a0 b0 M ∧ bl ≠ b0)) ∧
      chains P A'.length (A'.length + 1 + M.length) =
        some (hullOf (pre ++ upperOf bl al M ++ rest) ((pre ++ upperOf bl al M ++ rest).length - 1)) := by
  have hn := h.lenP
  have hL := lowerOf_length a0 b0 M
  have hU := upperOf_length bl al M
  have hL1 : 0 < (lowerOf a0 b0 M).length := by rw [lowerOf_head]; simp
  have hd : A'.length + 1 + M.length - A'.length = M.length + 1 := by omega
  have hp0 : push (P.length * 2) (at' P 0) [] = some [a0] := by
    rw [push, if_pos (by simp only [List.length_nil]; omega), h.at0]
  obtain ⟨rest, hr1, hr2, hr3⟩ : ∃ rest, ((rest = (lowerOf a0 b0 M).tail ∧ bl = b0) ∨
        (rest = lowerOf a0 b0 M ∧ bl ≠ b0)) ∧ rest.length + B''.length ≤ M.length + 1 + 2 * B''.length ∧
      (if P.length - 1 ≠ A'.length + 1 + M.length then push (P.length * 2) (at' P (P.length - 1)) (lowerOf a0 b0 M)
        else some (lowerOf a0 b0 M)) = some ([bl] ++ rest) := by
    by_cases hB : B'' = []
    · have hb : bl = b0 := by
        have := h.b1.symm.trans h.b2
        rw [hB] at this
        simp only [List.nil_append, List.cons.injEq] at this
        exact this.1.symm
      have hz : B''.length = 0 := by rw [hB]; rfl
      refine ⟨_, Or.inl ⟨rfl, hb⟩, ?_, ?_⟩
      · simp only [List.length_tail]; omega
      · rw [if_neg (by omega), hb]
        congr 1
        exact lowerOf_head a0 b0 M
    · have hpos : 0 < B''.length := List.length_pos_iff.mpr hB
      have hb : bl ≠ b0 := by
        intro hb
        have hs : B.Pairwise lexLt := h.sorted.sublist (by rw [h.eq]; exact List.sublist_append_right _ _)
        obtain ⟨y, B3, rfl⟩ := List.exists_cons_of_ne_nil hB
        have := h.b1.symm.trans h.b2
        simp only [List.cons_append, List.cons.injEq] at this
        rw [h.b2, List.cons_append] at hs
        have := (List.pairwise_cons.mp hs).1 bl (by simp)
        rw [hb] at this
        simp_all [lexLt_irrefl]
      refine ⟨_, Or.inr ⟨rfl, hb⟩, by omega, ?_⟩
      rw [if_pos (by omega), push, if_pos (by omega), h.atMaxmax]
      rfl
  have hlen : ([bl] ++ rest).length - 1 = rest.length := by simp
  have hup := h.upperLoop (rest := rest) (by
    rcases hr1 with ⟨e, _⟩ | ⟨e, _⟩
    · rw [e, List.length_tail]; omega
    · rw [e]; exact hL)
  by_cases hA : A' = []
  · have ha : a0 = al := by
      have := h.a1.symm.trans h.a2
      rw [hA] at this
      simp only [List.nil_append, List.cons.injEq] at this
      exact this.1
    refine ⟨[], rest, Or.inl ⟨rfl, ha⟩, hr1, ?_⟩
    have hz : A'.length = 0 := by rw [hA]; rfl
    unfold chains
    simp only [hp0, hd, h.lowerLoop, hr3, hlen, hup, Option.bind_eq_bind, Option.bind_some]
    rw [if_neg (by omega)]
    rfl
  · have hpos : 0 < A'.length := List.length_pos_iff.mpr hA
    have ha : a0 ≠ al := by
      intro ha
      have hs : A.Pairwise lexLt :=
        h.sorted.sublist (by rw [h.eq, List.append_assoc]; exact List.sublist_append_left _ _)
      obtain ⟨y, A3, rfl⟩ := List.exists_cons_of_ne_nil hA
      have := h.a1.symm.trans h.a2
      simp only [List.cons_append, List.cons.injEq] at this
      rw [h.a2, List.cons_append] at hs
      have := (List.pairwise_cons.mp hs).1 al (by simp)
      rw [← ha] at this
      simp_all [lexLt_irrefl]
    refine ⟨[a0], rest, Or.inr ⟨rfl, ha⟩, hr1, ?_⟩
    unfold chains
    simp only [hp0, hd, h.lowerLoop, hr3, hlen, hup, Option.bind_eq_bind, Option.bind_some]
    rw [if_pos (by omega), push, if_pos (by simp only [List.length_append]; omega), h.at0]
    rfl

/-! ## The chains of the layout -/

theorem Layout.mem (h : Layout P A M B A' A'' B' B'' a0 al b0 bl) {q : Pt} :
    q ∈ P ↔ q ∈ A ∨ q ∈ M ∨ q ∈ B := by
  rw [h.eq]; simp

theorem Layout.mem_a0 (h : Layout P A M B A' A'' B' B'' a0 al b0 bl) : a0 ∈ A := by rw [h.a1]; simp
theorem Layout.mem_al (h : Layout P A M B A' A'' B' B'' a0 al b0 bl) : al ∈ A := by rw [h.a2]; simp
theorem Layout.mem_b0 (h : Layout P A M B A' A'' B' B'' a0 al b0 bl) : b0 ∈ B := by rw [h.b1]; simp
theorem Layout.mem_bl (h : Layout P A M B A' A'' B' B'' a0 al b0 bl) : bl ∈ B := by rw [h.b2]; simp

theorem sorted_y {l : List Pt} {x : ℝ} (hs : l.Pairwise lexLt) (hx : ∀ a ∈ l, a.1 = x) :
    l.Pairwise fun a b => a.2 < b.2 := by
  induction l with
  | nil => exact List.Pairwise.nil
  | cons a l ih =>
    have hs' := List.pairwise_cons.mp hs
    refine List.pairwise_cons.mpr ⟨?_, ih hs'.2 fun b hb => hx b (List.mem_cons_of_mem _ hb)⟩
    intro b hb
    rcases hs'.1 b hb with g | ⟨_, g⟩
    · rw [hx a (by simp), hx b (List.mem_cons_of_mem _ hb)] at g; exact absurd g (lt_irrefl _)
    · exact g

theorem first_le {l l' : List Pt} {a : Pt} (e : l = a :: l') (hs : l.Pairwise fun a b => a.2 < b.2) :
    ∀ q ∈ l, a.2 ≤ q.2 := by
  intro q hq
  rw [e] at hq hs
  rcases List.mem_cons.mp hq with rfl | hq
  · exact le_rfl
  · exact ((List.pairwise_cons.mp hs).1 q hq).le

theorem last_ge {l l' : List Pt} {a : Pt} (e : l = l' ++ [a]) (hs : l.Pairwise fun a b => a.2 < b.2) :
    ∀ q ∈ l, q.2 ≤ a.2 := by
  intro q hq
  rw [e] at hq hs
  rcases List.mem_append.mp hq with hq | hq
  · exact ((List.pairwise_append.mp hs).2.2 q hq a (by simp)).le
  · rw [List.mem_singleton.mp hq]

theorem Layout.sortedA (h : Layout P A M B A' A'' B' B'' a0 al b0 bl) : A.Pairwise fun a b => a.2 < b.2 :=
  sorted_y (h.sorted.sublist (by rw [h.eq, List.append_assoc]; exact List.sublist_append_left _ _)) h.ax

theorem Layout.sortedB (h : Layout P A M B A' A'' B' B'' a0 al b0 bl) : B.Pairwise fun a b => a.2 < b.2 :=
  sorted_y (h.sorted.sublist (by rw [h.eq]; exact List.sublist_append_right _ _)) h.bx

theorem Layout.range (h : Layout P A M B A' A'' B' B'' a0 al b0 bl) : ∀ q ∈ P, a0.1 ≤ q.1 ∧ q.1 ≤ b0.1 := by
  intro q hq
  have := h.lt
  rcases h.mem.mp hq with g | g | g
  · rw [h.ax q g]; exact ⟨le_rfl, this.le⟩
  · exact ⟨(h.mx q g).1.le, (h.mx q g).2.le⟩
  · rw [h.bx q g]; exact ⟨this.le, le_rfl⟩

theorem Layout.lower (h : Layout P A M B A' A'' B' B'' a0 al b0 bl) : Chain P a0 b0 (lowerOf a0 b0 M) := by
  have hlt := h.lt
  refine chain_build rfl ?_ (fun m hm => (h.mx m hm).2) h.lt (h.mem.mpr (Or.inl h.mem_a0))
    (h.mem.mpr (Or.inr (Or.inr h.mem_b0))) (fun m hm => h.mem.mpr (Or.inr (Or.inl hm))) ?_
  · refine h.sorted.sublist ?_
    rw [h.eq, h.a1, h.b1, List.cons_append, List.cons_append]
    refine List.Sublist.cons_cons _ ?_
    rw [List.append_assoc]
    refine List.Sublist.trans ?_ (List.sublist_append_right _ _)
    exact List.Sublist.append (List.Sublist.refl _) (by simp)
  · intro q hq
    rcases h.mem.mp hq with g | g | g
    · right; right; right
      have e := h.ax q g
      have := first_le h.a1 h.sortedA q g
      refine ⟨e.ge, by linarith, ?_⟩
      have e' : isLeft a0 b0 q = (b0.1 - a0.1) * (q.2 - a0.2) := by unfold isLeft; rw [e]; ring
      rw [e']
      exact mul_nonneg (by linarith) (by linarith)
    · exact Or.inr (Or.inl g)
    · right; right; right
      have e := h.bx q g
      have := first_le h.b1 h.sortedB q g
      refine ⟨by linarith, e.le, ?_⟩
      have e' : isLeft a0 b0 q = (b0.1 - a0.1) * (q.2 - b0.2) := by unfold isLeft; rw [e]; ring
      rw [e']
      exact mul_nonneg (by linarith) (by linarith)

theorem lexLt_neg {a b : Pt} (h : lexLt a b) : lexLt (neg b) (neg a) := by
  rcases h with h | ⟨h1, h2⟩
  · left; simp only [neg]; linarith
  · right; simp only [neg]; exact ⟨by linarith, by linarith⟩

theorem Layout.upper (h : Layout P A M B A' A'' B' B'' a0 al b0 bl) : UpChain P bl al (upperOf bl al M) := by
  have hlt := h.lt
  have hal := h.ax al h.mem_al
  have hbl := h.bx bl h.mem_bl
  unfold UpChain upperOf
  rw [← build_map_neg]
  refine chain_build (mids := (M.map neg).reverse) ?_ ?_ ?_ ?_ (List.mem_map_of_mem (h.mem.mpr (Or.inr (Or.inr h.mem_bl))))
    (List.mem_map_of_mem (h.mem.mpr (Or.inl h.mem_al))) ?_ ?_
  · rw [List.map_append, ← List.map_reverse, List.filter_map]
    congr 2
    refine List.filter_congr ?_
    intro q _
    simp only [Function.comp, isLeft_neg]
  · have e : neg bl :: ((M.map neg).reverse ++ [neg al]) = (al :: (M ++ [bl])).reverse.map neg := by
      simp [List.map_reverse]
    rw [e, List.pairwise_map, List.pairwise_reverse]
    have : (al :: (M ++ [bl])).Pairwise lexLt := by
      refine h.sorted.sublist ?_
      rw [h.eq, h.a2, h.b2]
      have e : A' ++ [al] ++ M ++ (B'' ++ [bl]) = A' ++ (al :: (M ++ (B'' ++ [bl]))) := by simp
      rw [e]
      refine List.Sublist.trans ?_ (List.sublist_append_right _ _)
      refine List.Sublist.cons_cons _ ?_
      exact List.Sublist.append (List.Sublist.refl _) (List.sublist_append_right _ _)
    exact this.imp lexLt_neg
  · intro m hm
    obtain ⟨q, hq, rfl⟩ := List.mem_map.mp (List.mem_reverse.mp hm)
    have := (h.mx q hq).1
    simp only [neg]; linarith
  · simp only [neg]; linarith
  · intro m hm
    obtain ⟨q, hq, rfl⟩ := List.mem_map.mp (List.mem_reverse.mp hm)
    exact List.mem_map_of_mem (h.mem.mpr (Or.inr (Or.inl hq)))
  · intro q' hq'
    obtain ⟨q, hq, rfl⟩ := List.mem_map.mp hq'
    rw [isLeft_neg]
    rcases h.mem.mp hq with g | g | g
    · right; right; right
      have e := h.ax q g
      have := last_ge h.a2 h.sortedA q g
      refine ⟨by simp only [neg]; linarith, by simp only [neg]; linarith, ?_⟩
      have e' : isLeft bl al q = (bl.1 - al.1) * (al.2 - q.2) := by unfold isLeft; rw [e, hal]; ring
      rw [e']
      exact mul_nonneg (by linarith) (by linarith)
    · right; left
      exact List.mem_reverse.mpr (List.mem_map_of_mem g)
    · right; right; right
      have e := h.bx q g
      have := last_ge h.b2 h.sortedB q g
      refine ⟨by simp only [neg]; linarith, by simp only [neg]; linarith, ?_⟩
      have e' : isLeft bl al q = (bl.1 - al.1) * (bl.2 - q.2) := by unfold isLeft; rw [e, hbl]; ring
      rw [e']
      exact mul_nonneg (by linarith) (by linarith)

/-- The hull that is made of the final stack. -/
theorem hullOf_edges {x : Pt} {r : List Pt} (hr : r.getLast? = some x) (e : Pt × Pt) :
    e ∈ hullEdges (hullOf (x :: r) ((x :: r).length - 1)) ↔ e ∈ edges (x :: r) := by
  rw [← closed_edges hr]
  have : (x :: r).reverse.take r.length = r.reverse := by simp
  simp only [hullEdges, hullOf, List.length_cons, Nat.add_sub_cancel, this]

theorem tail_last {a0 : Pt} {L : List Pt} (h : L.getLast? = some a0) (hh : L.head? ≠ some a0) :
    L.tail.getLast? = some a0 := by
  match L with
  | [] => cases h
  | [x] =>
    simp only [List.getLast?_singleton] at h
    exact absurd h hh
  | x :: y :: l => rw [List.getLast?_cons_cons] at h; exact h

/-- The final stack: its ends, and its edges. -/
theorem Layout.final (h : Layout P A M B A' A'' B' B'' a0 al b0 bl) {pre rest : List Pt}
    (hp : (pre = [] ∧ a0 = al) ∨ (pre = [a0] ∧ a0 ≠ al))
    (hr : (rest = (lowerOf a0 b0 M).tail ∧ bl = b0) ∨ (rest = lowerOf a0 b0 M ∧ bl ≠ b0)) :
    ∃ r, pre ++ upperOf bl al M ++ rest = a0 :: r ∧ r.getLast? = some a0 ∧
      Boundary a0 b0 bl al (lowerOf a0 b0 M) (upperOf bl al M) (edges (a0 :: r)) ∧
      ∀ v, v ∈ r ↔ v ∈ lowerOf a0 b0 M ∨ v ∈ upperOf bl al M := by
  have hL := h.lower
  have hU := h.upper
  have hlt := h.lt
  have ne : b0 ≠ a0 := fun g => by rw [g] at hlt; exact lt_irrefl _ hlt
  have nbl : bl ≠ al := fun g => by
    have e1 := h.bx bl h.mem_bl
    have e2 := h.ax al h.mem_al
    rw [g, e2] at e1
    linarith
  have hrl : rest.getLast? = some a0 := by
    rcases hr with ⟨rfl, _⟩ | ⟨rfl, _⟩
    · exact tail_last hL.last (by rw [hL.head]; intro g; injection g with g; exact ne g)
    · exact hL.last
  have hrne : rest ≠ [] := by intro g; rw [g] at hrl; cases hrl
  have hUl := hU.last'
  obtain ⟨U1, hU1⟩ : ∃ U1, upperOf bl al M = U1 ++ [bl] := by
    rcases List.eq_nil_or_concat (upperOf bl al M) with g | ⟨U1, x, g⟩
    · rw [g] at hUl; cases hUl
    · rw [List.concat_eq_append] at g
      rw [g, List.getLast?_concat] at hUl
      injection hUl with hUl
      exact ⟨U1, by rw [g, hUl]⟩
  -- the edges of the upper chain and the rest
  have hE : edges (upperOf bl al M ++ rest) = edges (upperOf bl al M) ++ edges (bl :: rest) := by
    rw [hU1, List.append_assoc, List.singleton_append, edges_append, ← hU1]
  have hER : ∀ e, e ∈ edges (bl :: rest) ↔ e ∈ edges (lowerOf a0 b0 M) ∨ (e = (b0, bl) ∧ bl ≠ b0) := by
    intro e
    rcases hr with ⟨rfl, g⟩ | ⟨rfl, g⟩
    · rw [g, ← lowerOf_head]
      constructor
      · exact Or.inl
      · rintro (k | ⟨_, k⟩)
        · exact k
        · exact absurd rfl k
    · have hh := lowerOf_head a0 b0 M
      have : edges (bl :: lowerOf a0 b0 M) = (b0, bl) :: edges (lowerOf a0 b0 M) := by
        rw [hh]; simp [edges]
      rw [this, List.mem_cons]
      constructor
      · rintro (k | k)
        · exact Or.inr ⟨k, g⟩
        · exact Or.inl k
      · rintro (k | ⟨k, _⟩)
        · exact Or.inr k
        · exact Or.inl k
  have hmr : ∀ v, v ∈ rest ∨ v ∈ upperOf bl al M ↔ v ∈ lowerOf a0 b0 M ∨ v ∈ upperOf bl al M := by
    intro v
    rcases hr with ⟨rfl, g⟩ | ⟨rfl, g⟩
    · constructor
      · rintro (k | k)
        · exact Or.inl (List.mem_of_mem_tail k)
        · exact Or.inr k
      · rintro (k | k)
        · rw [lowerOf_head] at k
          rcases List.mem_cons.mp k with k | k
          · right; rw [k, ← g]; exact List.mem_of_getLast? hUl
          · exact Or.inl k
        · exact Or.inr k
    · exact Iff.rfl
  have hbd : ∀ E : List (Pt × Pt), (∀ e, e ∈ E ↔ e ∈ edges (lowerOf a0 b0 M) ∨ e ∈ edges (upperOf bl al M) ∨
      (e = (b0, bl) ∧ b0 ≠ bl) ∨ (e = (al, a0) ∧ al ≠ a0)) →
      Boundary a0 b0 bl al (lowerOf a0 b0 M) (upperOf bl al M) E := by
    intro E h
    refine ⟨fun e he => (h e).mp he, fun e he => (h e).mpr (Or.inl he), fun e he => (h e).mpr (Or.inr (Or.inl he)),
      fun g => (h _).mpr (Or.inr (Or.inr (Or.inl ⟨rfl, g⟩))), fun g => (h _).mpr (Or.inr (Or.inr (Or.inr ⟨rfl, g⟩)))⟩
  rcases hp with ⟨rfl, g⟩ | ⟨rfl, g⟩
  · refine ⟨(upperOf bl al M).tail ++ rest, ?_, ?_, ?_, ?_⟩
    · rw [List.nil_append, upperOf_head, g]; rfl
    · rw [List.getLast?_append_of_ne_nil _ hrne, hrl]
    · have : a0 :: ((upperOf bl al M).tail ++ rest) = upperOf bl al M ++ rest := by
        rw [g]; conv_rhs => rw [upperOf_head]
        rfl
      rw [this, hE]
      refine hbd _ ?_
      intro e
      rw [List.mem_append, hER]
      constructor
      · rintro (k | k | ⟨k, k'⟩)
        · exact Or.inr (Or.inl k)
        · exact Or.inl k
        · exact Or.inr (Or.inr (Or.inl ⟨k, Ne.symm k'⟩))
      · rintro (k | k | ⟨k, k'⟩ | ⟨k, k'⟩)
        · exact Or.inr (Or.inl k)
        · exact Or.inl k
        · exact Or.inr (Or.inr ⟨k, Ne.symm k'⟩)
        · exact absurd g.symm k'
    · intro v
      rw [← hmr, List.mem_append]
      constructor
      · rintro (k | k)
        · exact Or.inr (List.mem_of_mem_tail k)
        · exact Or.inl k
      · rintro (k | k)
        · exact Or.inr k
        · rw [upperOf_head] at k
          rcases List.mem_cons.mp k with k | k
          · right; rw [k, ← g]; exact List.mem_of_getLast? hrl
          · exact Or.inl k
  · refine ⟨upperOf bl al M ++ rest, rfl, ?_, ?_, ?_⟩
    · rw [List.getLast?_append_of_ne_nil _ hrne, hrl]
    · have : edges (a0 :: (upperOf bl al M ++ rest)) = (al, a0) :: edges (upperOf bl al M ++ rest) := by
        rw [upperOf_head]; simp [edges]
      rw [this, hE]
      refine hbd _ ?_
      intro e
      rw [List.mem_cons, List.mem_append, hER]
      constructor
      · rintro (k | k | k | ⟨k, k'⟩)
        · exact Or.inr (Or.inr (Or.inr ⟨k, Ne.symm g⟩))
        · exact Or.inr (Or.inl k)
        · exact Or.inl k
        · exact Or.inr (Or.inr (Or.inl ⟨k, Ne.symm k'⟩))
      · rintro (k | k | ⟨k, k'⟩ | ⟨k, k'⟩)
        · exact Or.inr (Or.inr (Or.inl k))
        · exact Or.inr (Or.inl k)
        · exact Or.inr (Or.inr (Or.inr ⟨k, Ne.symm k'⟩))
        · exact Or.inl k
    · intro v
      rw [← hmr, List.mem_append]
      exact or_comm

end

end Simox.Hull
