import Verif.Hull.InsideLemmas

/-!
# Lemmas: the loops of the hull
-/

namespace Simox.Hull

open Classical

theorem popLoop_eq (p : Pt) {rest : List Pt} : ∀ (s : List Pt), s ≠ [] →
    popLoop rest.length p (s ++ rest) = pops p s ++ rest
  | [], h => absurd rfl h
  | [t], _ => by
    cases rest with
    | nil => rfl
    | cons u r =>
      show popLoop (r.length + 1) p (t :: u :: r) = t :: u :: r
      unfold popLoop
      rw [if_neg (lt_irrefl _)]
  | t :: u :: l, _ => by
    have ih := popLoop_eq p (rest := rest) (u :: l) (by simp)
    show popLoop rest.length p (t :: u :: (l ++ rest)) = _
    unfold popLoop pops
    rw [if_pos (by simp only [List.length_append]; omega)]
    by_cases h : isLeft u t p > 0
    · rw [if_pos h, if_pos h]; rfl
    · rw [if_neg h, if_neg h]; exact ih

theorem pops_ne (p : Pt) : ∀ (s : List Pt), s ≠ [] → pops p s ≠ []
  | [], h => absurd rfl h
  | [_], _ => by simp [pops]
  | t :: u :: l, _ => by
    unfold pops
    by_cases h : isLeft u t p > 0
    · rw [if_pos h]; simp
    · rw [if_neg h]; exact pops_ne p (u :: l) (by simp)

theorem pops_length (p : Pt) : ∀ (s : List Pt), (pops p s).length ≤ s.length
  | [] => Nat.le_refl _
  | [_] => Nat.le_refl _
  | t :: u :: l => by
    unfold pops
    by_cases h : isLeft u t p > 0
    · rw [if_pos h]
    · rw [if_neg h]; exact Nat.le_succ_of_le (pops_length p (u :: l))

theorem build_length : ∀ (l s : List Pt), (build s l).length ≤ s.length + l.length
  | [], _ => Nat.le_refl _
  | p :: l, s => by
    have h := build_length l (p :: pops p s)
    have := pops_length p s
    simp only [build, List.foldl_cons, List.length_cons] at h ⊢
    omega

theorem loop_append (f : List Pt → Nat → Option (List Pt)) : ∀ (is js : List Nat) (s : List Pt),
    loop f (is ++ js) s = (loop f is s).bind (loop f js)
  | [], js, s => rfl
  | i :: is, js, s => by
    simp only [List.cons_append, loop]
    cases f s i with
    | none => rfl
    | some s' => exact loop_append f is js s'

theorem loop_build {cap : Nat} {rest : List Pt} {C : Nat → Prop} {g : Nat → Pt}
    {f : List Pt → Nat → Option (List Pt)} : ∀ (is : List Nat)
    (_ : ∀ s, ∀ i ∈ is, f s i = if C i then some s else push cap (g i) (popLoop rest.length (g i) s))
    (s : List Pt), s ≠ [] → s.length + rest.length + is.length ≤ cap →
    loop f is (s ++ rest) = some (build s ((is.filter fun i => ¬ C i).map g) ++ rest)
  | [], _, s, _, _ => rfl
  | i :: is, hf, s, hs, hc => by
    simp only [List.length_cons] at hc
    have hf' := fun s j hj => hf s j (List.mem_cons_of_mem _ hj)
    simp only [loop, hf _ i (List.mem_cons_self ..)]
    by_cases h : C i
    · rw [if_pos h, List.filter_cons_of_neg (by simpa using h)]
      exact loop_build is hf' s hs (by omega)
    · have hl := pops_length (g i) s
      rw [if_neg h, List.filter_cons_of_pos (by simpa using h), popLoop_eq _ _ hs, push,
        if_pos (by simp only [List.length_append]; omega)]
      exact loop_build is hf' (g i :: pops (g i) s) (by simp) (by simp only [List.length_cons]; omega)

/-! ## Indices -/

theorem at'_range (X Y Z : List Pt) : (List.range' X.length Y.length).map (at' (X ++ Y ++ Z)) = Y := by
  refine List.ext_getElem (by simp) ?_
  intro i h1 h2
  simp only [List.getElem_map, List.getElem_range', at', one_mul]
  rw [List.getD_eq_getElem?_getD, List.getElem?_append_left (by simp; exact h2),
    List.getElem?_append_right (by omega), Nat.add_sub_cancel_left, List.getElem?_eq_getElem h2]
  rfl

theorem at'_append (X Z : List Pt) (y : Pt) : at' (X ++ y :: Z) X.length = y := by
  simp [at']

theorem scanUp_eq {x : ℝ} : ∀ (A : List Pt) {d : Pt} {D : List Pt} (i : Nat), (∀ a ∈ A, a.1 = x) → d.1 ≠ x →
    scanUp x (A ++ d :: D) i = i + A.length
  | [], d, D, i, _, hd => by simp [scanUp, hd]
  | a :: A, d, D, i, hA, hd => by
    have := scanUp_eq A (d := d) (D := D) (i + 1) (fun b hb => hA b (List.mem_cons_of_mem _ hb)) hd
    simp only [List.cons_append, scanUp, hA a (by simp), ne_eq, not_true_eq_false, if_false, this,
      List.length_cons]
    omega

theorem scanUp_all {x : ℝ} : ∀ (A : List Pt) (i : Nat), (∀ a ∈ A, a.1 = x) → scanUp x A i = i + A.length
  | [], i, _ => rfl
  | a :: A, i, hA => by
    have := scanUp_all A (i + 1) (fun b hb => hA b (List.mem_cons_of_mem _ hb))
    simp only [scanUp, hA a (by simp), ne_eq, not_true_eq_false, if_false, this, List.length_cons]
    omega

theorem scanDown_eq {x : ℝ} (X : List Pt) {y : Pt} {B : List Pt} (hy : y.1 ≠ x) (hB : ∀ b ∈ B, b.1 = x) :
    ∀ k, X.length + 1 ≤ k → k ≤ X.length + 1 + B.length → scanDown (X ++ y :: B) x k = X.length + 1 := by
  intro k
  induction k with
  | zero => intro h; omega
  | succ k ih =>
    intro h1 h2
    unfold scanDown
    by_cases hk : k = X.length
    · subst hk
      rw [at'_append, if_pos hy]
    · have hk' : k < (X ++ y :: B).length := by simp only [List.length_append, List.length_cons]; omega
      have e : (at' (X ++ y :: B) k).1 = x := by
        have : at' (X ++ y :: B) k ∈ B := by
          unfold at'
          rw [List.getD_eq_getElem?_getD, List.getElem?_append_right (by omega)]
          obtain ⟨j, hj⟩ : ∃ j, k - X.length = j + 1 := ⟨k - X.length - 1, by omega⟩
          rw [hj, List.getElem?_cons_succ, List.getElem?_eq_getElem (by omega)]
          exact List.getElem_mem _
        exact hB _ this
      rw [if_neg (not_not.mpr e)]
      exact ih (by omega) (by omega)

/-! ## The points by their first coordinate -/

theorem takeWhile_all {p : Pt → Bool} : ∀ {l : List Pt} {x : Pt}, x ∈ l.takeWhile p → p x = true := by
  intro l
  induction l with
  | nil => intro x h; cases h
  | cons a l ih =>
    intro x h
    rw [List.takeWhile_cons] at h
    by_cases ha : p a = true
    · rw [if_pos ha] at h
      rcases List.mem_cons.mp h with rfl | h
      · exact ha
      · exact ih h
    · rw [if_neg ha] at h; cases h

theorem dropWhile_ge {P : List Pt} (hs : P.Pairwise lexLt) {c : ℝ → Prop} (hc : ∀ x y, x ≤ y → ¬ c x → ¬ c y) :
    ∀ q ∈ P.dropWhile (fun q => c q.1), ¬ c q.1 := by
  induction P with
  | nil => intro q h; cases h
  | cons a l ih =>
    have hs' := List.pairwise_cons.mp hs
    intro q hq
    rw [List.dropWhile_cons] at hq
    by_cases ha : c a.1
    · rw [if_pos (by simpa using ha)] at hq
      exact ih hs'.2 q hq
    · rw [if_neg (by simpa using ha)] at hq
      rcases List.mem_cons.mp hq with rfl | hq
      · exact ha
      · exact hc _ _ (lexLe_fst (Or.inl (hs'.1 q hq))) ha

/-- The leftmost points, those between, and the rightmost points. -/
theorem split3 {P : List Pt} (hs : P.Pairwise lexLt) {p0 p1 : Pt} (h0 : p0 ∈ P) (h1 : p1 ∈ P)
    (hmin : ∀ q ∈ P, p0.1 ≤ q.1) (hmax : ∀ q ∈ P, q.1 ≤ p1.1) (hne : p0.1 < p1.1) :
    ∃ A M B, P = A ++ M ++ B ∧ A ≠ [] ∧ B ≠ [] ∧ (∀ a ∈ A, a.1 = p0.1) ∧
      (∀ m ∈ M, p0.1 < m.1 ∧ m.1 < p1.1) ∧ ∀ b ∈ B, b.1 = p1.1 := by
  have hD := dropWhile_ge hs (c := fun x => x ≤ p0.1) (fun x y h g => by push Not at g ⊢; linarith)
  have hDs : (P.dropWhile (fun q => q.1 ≤ p0.1)).Pairwise lexLt := hs.sublist (List.dropWhile_sublist _)
  have hB := dropWhile_ge hDs (c := fun x => x < p1.1) (fun x y h g => by push Not at g ⊢; linarith)
  have e1 := List.takeWhile_append_dropWhile (p := fun q : Pt => decide (q.1 ≤ p0.1)) (l := P)
  have e2 := List.takeWhile_append_dropWhile (p := fun q : Pt => decide (q.1 < p1.1))
    (l := P.dropWhile (fun q => decide (q.1 ≤ p0.1)))
  refine ⟨_, _, _, (by rw [List.append_assoc, e2, e1]), ?_, ?_, ?_, ?_, ?_⟩
  · intro g
    rw [g, List.nil_append] at e1
    have := hD p0 (by rw [e1]; exact h0)
    exact this le_rfl
  · intro g
    rw [g, List.append_nil] at e2
    have m : p1 ∈ P.dropWhile (fun q => decide (q.1 ≤ p0.1)) := by
      rw [← e1] at h1
      rcases List.mem_append.mp h1 with h | h
      · have := takeWhile_all h
        simp only [decide_eq_true_eq] at this
        linarith
      · exact h
    rw [← e2] at m
    have := takeWhile_all m
    simp only [decide_eq_true_eq] at this
    linarith
  · intro a ha
    have h := takeWhile_all ha
    simp only [decide_eq_true_eq] at h
    exact le_antisymm h (hmin a (List.takeWhile_subset _ ha))
  · intro m hm
    have h := takeWhile_all hm
    simp only [decide_eq_true_eq] at h
    have := hD m (List.takeWhile_subset _ hm)
    exact ⟨by linarith, h⟩
  · intro b hb
    have h := hB b hb
    exact le_antisymm (hmax b (List.dropWhile_subset _ (List.dropWhile_subset _ hb))) (by linarith)

/-! ## Edges by indices -/

theorem edges_index : ∀ {F : List Pt} {e : Pt × Pt}, e ∈ edges F ↔ ∃ i, F[i + 1]? = some e.1 ∧ F[i]? = some e.2 := by
  intro F
  induction F with
  | nil => intro e; simp [edges]
  | cons v l ih =>
    intro e
    cases l with
    | nil => simp [edges]
    | cons u r =>
      simp only [edges, List.mem_cons, ih]
      constructor
      · rintro (rfl | ⟨i, h1, h2⟩)
        · exact ⟨0, rfl, rfl⟩
        · exact ⟨i + 1, h1, h2⟩
      · rintro ⟨i, h1, h2⟩
        cases i with
        | zero =>
          left
          simp only [List.getElem?_cons_succ, List.getElem?_cons_zero, Option.some.injEq] at h1 h2
          exact Prod.ext h1.symm h2.symm
        | succ i => right; exact ⟨i, h1, h2⟩

theorem edges_append : ∀ (a : List Pt) (x : Pt) (c : List Pt),
    edges (a ++ x :: c) = edges (a ++ [x]) ++ edges (x :: c)
  | [], _, _ => rfl
  | [y], x, c => rfl
  | y :: z :: a, x, c => by
    have := edges_append (z :: a) x c
    simp only [List.cons_append, edges] at this ⊢
    rw [this]

/-- The edges of a hull: the vertices of its segments. -/
noncomputable def hullEdges (h : ConvexHull2D) : List (Pt × Pt) :=
  h.segments.map fun s => (at' h.vertices s.1, at' h.vertices s.2)

theorem isInside_some (p : Pt) (h : ConvexHull2D) : isInside p (some h) = insideE p (hullEdges h) := by
  simp only [isInside, insideLoop_eq, hullEdges]

theorem at'_some {l : List Pt} {i : Nat} {x : Pt} (h : l[i]? = some x) : at' l i = x := by
  simp [at', h]

theorem closed_edges {x : Pt} {r : List Pt} (hr : r.getLast? = some x) (e : Pt × Pt) :
    e ∈ (closedSegments r.length).map (fun s => (at' r.reverse s.1, at' r.reverse s.2)) ↔ e ∈ edges (x :: r) := by
  have hne : 0 < r.length := by
    cases r with
    | nil => cases hr
    | cons _ _ => simp
  have hw : ∀ u, u < r.length → r[r.length - 1 - u]? = some (at' r.reverse u) := by
    intro u hu
    have : r.reverse[u]? = some (at' r.reverse u) := by
      rw [List.getElem?_eq_getElem (by simpa using hu), at'_some (List.getElem?_eq_getElem (by simpa using hu))]
    rw [List.getElem?_reverse hu] at this
    exact this
  have h0 : at' r.reverse 0 = x := by
    have := hw 0 hne
    rw [Nat.sub_zero, ← List.getLast?_eq_getElem?, hr] at this
    injection this with this
    exact this.symm
  rw [edges_index, closedSegments, List.map_map, List.mem_map]
  constructor
  · rintro ⟨u, hu, rfl⟩
    have hu := List.mem_range.mp hu
    dsimp only [Function.comp]
    refine ⟨r.length - 1 - u, ?_, ?_⟩
    · rw [List.getElem?_cons_succ]; exact hw u hu
    · by_cases g : u = r.length - 1
      · rw [if_neg (not_not.mpr g), h0, g, Nat.sub_self]; rfl
      · rw [if_pos g]
        have : r.length - 1 - u = (r.length - 1 - (u + 1)) + 1 := by omega
        rw [this, List.getElem?_cons_succ]
        exact hw (u + 1) (by omega)
  · rintro ⟨i, h1, h2⟩
    rw [List.getElem?_cons_succ] at h1
    have hi : i < r.length := by
      by_contra hc
      rw [List.getElem?_eq_none (by omega)] at h1
      cases h1
    refine ⟨r.length - 1 - i, List.mem_range.mpr (by omega), ?_⟩
    dsimp only [Function.comp]
    have a1 := hw (r.length - 1 - i) (by omega)
    rw [show r.length - 1 - (r.length - 1 - i) = i by omega, h1] at a1
    injection a1 with a1
    refine Prod.ext a1.symm ?_
    dsimp only
    cases i with
    | zero =>
      rw [if_neg (by omega), h0]
      simp only [List.getElem?_cons_zero, Option.some.injEq] at h2
      exact h2
    | succ i =>
      rw [List.getElem?_cons_succ] at h2
      rw [if_pos (by omega)]
      have a2 := hw (r.length - 1 - (i + 1) + 1) (by omega)
      rw [show r.length - 1 - (r.length - 1 - (i + 1) + 1) = i by omega, h2] at a2
      injection a2 with a2
      exact a2.symm

end Simox.Hull
