/-
What the traversal for tolerance queries computes.
-/
import Verif.Pqp.Traverse2

namespace Simox.Pqp

/-- Outcome of a (sub)query for a tolerance. -/
def Tells (tol : ℝ) (RR : M3) (TT : V3) (l1 l2 : List Tri) (out : Option (Option TriRes)) : Prop :=
  ∃ r, out = some r ∧
    (∀ tr, r = some tr → tr.d ≤ tol ∧ ∃ t1 ∈ l1, ∃ t2 ∈ l2, tr = triDistance RR TT t1 t2) ∧
    (r = none → ∀ t1 ∈ l1, ∀ t2 ∈ l2, ∀ p q, t1.has p → t2.has q → tol < gap RR TT p q)

theorem guardedTol {tol : ℝ} {RR : M3} (hR : Orthonormal RR) {TT : V3}
    {A B : BTree} (hA : Fits A) (hB : Fits B) {out : Option (Option TriRes)}
    (h : Tells tol RR TT A.tris B.tris out) :
    Tells tol RR TT A.tris B.tris
      (if bvDistance (relR RR A.bv B.bv) (relTr RR TT A.bv B.bv) A.bv B.bv ≤ tol then out
        else some none) := by
  by_cases hc : bvDistance (relR RR A.bv B.bv) (relTr RR TT A.bv B.bv) A.bv B.bv ≤ tol
  · rw [if_pos hc]; exact h
  · rw [if_neg hc]
    refine ⟨none, rfl, by simp, ?_⟩
    intro _ t1 h1 t2 h2 p q hp hq
    exact (not_le.mp hc).trans_le (bvDistance_le hR hA hB h1 h2 hp hq)

theorem Tells.seq {tol : ℝ} {RR : M3} {TT : V3} {l1 l2 k1 k2 m1 m2 : List Tri}
    {out : Option (Option TriRes)} {next : Option TriRes → Option (Option TriRes)}
    (h : Tells tol RR TT l1 l2 out) (h' : Tells tol RR TT k1 k2 (next none))
    (hl : ∀ t1 ∈ l1, ∀ t2 ∈ l2, t1 ∈ m1 ∧ t2 ∈ m2) (hk : ∀ t1 ∈ k1, ∀ t2 ∈ k2, t1 ∈ m1 ∧ t2 ∈ m2)
    (hc : ∀ t1 ∈ m1, ∀ t2 ∈ m2, (t1 ∈ l1 ∧ t2 ∈ l2) ∨ (t1 ∈ k1 ∧ t2 ∈ k2)) :
    Tells tol RR TT m1 m2
      (match (generalizing := false) out with
        | none => none
        | some res => if res.isSome = true then some res else next res) := by
  obtain ⟨r, e, s, n⟩ := h
  subst e
  cases r with
  | some tr =>
    refine ⟨some tr, by simp, ?_, by simp⟩
    intro tr' e
    obtain ⟨a, t1, g1, t2, g2, b⟩ := s tr' e
    obtain ⟨x, y⟩ := hl t1 g1 t2 g2
    exact ⟨a, t1, x, t2, y, b⟩
  | none =>
    obtain ⟨r', e', s', n'⟩ := h'
    refine ⟨r', by simpa using e', ?_, ?_⟩
    · intro tr' e
      obtain ⟨a, t1, g1, t2, g2, b⟩ := s' tr' e
      obtain ⟨x, y⟩ := hk t1 g1 t2 g2
      exact ⟨a, t1, x, t2, y, b⟩
    · intro e t1 h1 t2 h2
      rcases hc t1 h1 t2 h2 with ⟨a, b⟩ | ⟨a, b⟩
      · exact n rfl t1 a t2 b
      · exact n' e t1 a t2 b

theorem Tells.both {tol : ℝ} {RR : M3} {TT : V3} {l1 l2 k1 k2 m1 m2 : List Tri}
    {f g : Option TriRes → Option (Option TriRes)}
    (hf : Tells tol RR TT l1 l2 (f none)) (hg : Tells tol RR TT k1 k2 (g none))
    (hl : ∀ t1 ∈ l1, ∀ t2 ∈ l2, t1 ∈ m1 ∧ t2 ∈ m2) (hk : ∀ t1 ∈ k1, ∀ t2 ∈ k2, t1 ∈ m1 ∧ t2 ∈ m2)
    (hc : ∀ t1 ∈ m1, ∀ t2 ∈ m2, (t1 ∈ l1 ∧ t2 ∈ l2) ∨ (t1 ∈ k1 ∧ t2 ∈ k2)) (c : Prop) [Decidable c] :
    Tells tol RR TT m1 m2
      (if c then (match g none with
        | none => none
        | some res => if res.isSome = true then some res else f res)
      else (match f none with
        | none => none
        | some res => if res.isSome = true then some res else g res)) := by
  split_ifs
  · exact hg.seq hf hk hl (fun t1 h1 t2 h2 => (hc t1 h1 t2 h2).symm)
  · exact hf.seq hg hl hk hc

theorem tolRec_spec {tol : ℝ} {RR : M3} (hR : Orthonormal RR)
    (TT : V3) (o1 o2 : Model) : ∀ (f : Nat) (A B : BTree)
    (p1 p2 : M3) (a1 a2 c1 c2 : V3) (n1 n2 : Nat),
    A.height + B.height ≤ f → Fits A → Fits B →
    Rep o1.bvs o1.tris (relTree A p1 a1 c1) n1 → Rep o2.bvs o2.tris (relTree B p2 a2 c2) n2 →
    Exact RR TT A.tris B.tris →
    Tells tol RR TT A.tris B.tris
      (tolRec tol RR TT o1 o2 f (relR RR A.bv B.bv) (relTr RR TT A.bv B.bv) n1 n2 none) := by
  intro f
  induction f with
  | zero =>
    intro A B _ _ _ _ _ _ _ _ _ hf
    have : 0 < A.height := by cases A <;> simp [BTree.height]
    omega
  | succ f ih =>
    intro A B p1 p2 a1 a2 c1 c2 n1 n2 hf hA hB r1 r2 hx
    have e1 := r1.bv
    have e2 := r2.bv
    rw [relTree_bv] at e1 e2
    unfold tolRec
    simp only [e1, e2, leaf_relTo, size_relTo, firstChild_relTo, descendFirst]
    cases A with
    | leaf b1 i1 t1 =>
      have l1 : b1.leaf = true := by
        have := r1.2.1
        simp only [firstChild_relTo] at this
        simp only [BV.leaf, this, decide_eq_true_eq]; omega
      cases B with
      | leaf b2 i2 t2 =>
        have l2 : b2.leaf = true := by
          have := r2.2.1
          simp only [firstChild_relTo] at this
          simp only [BV.leaf, this, decide_eq_true_eq]; omega
        obtain ⟨_, f1, g1⟩ := r1
        obtain ⟨_, f2, g2⟩ := r2
        have x1 : o1.tri (relTo p1 a1 c1 b1) = some t1 := by
          unfold Model.tri
          rw [f1]
          have : (-(-((i1 : Int) + 1)) - 1).toNat = i1 := by omega
          rw [this]; exact g1
        have x2 : o2.tri (relTo p2 a2 c2 b2) = some t2 := by
          unfold Model.tri
          rw [f2]
          have : (-(-((i2 : Int) + 1)) - 1).toNat = i2 := by omega
          rw [this]; exact g2
        simp only [BTree.bv, l1, l2, Bool.and_self, if_true, x1, x2]
        have hd := hx t1 (by simp [BTree.tris]) t2 (by simp [BTree.tris])
        by_cases hle : (triDistance RR TT t1 t2).d ≤ tol
        · rw [if_pos hle]
          refine ⟨_, rfl, ?_, by simp⟩
          intro tr e
          obtain rfl := Option.some.inj e
          exact ⟨hle, t1, by simp [BTree.tris], t2, by simp [BTree.tris], rfl⟩
        · rw [if_neg hle]
          refine ⟨_, rfl, by simp, ?_⟩
          intro _ u1 hu1 u2 hu2 p q hp hq
          simp only [BTree.tris, List.mem_singleton] at hu1 hu2
          subst hu1; subst hu2
          exact (not_le.mp hle).trans_le (hd p q hp hq)
      | node b2 k l r =>
        obtain ⟨_, h2, h3, h4⟩ := r2
        simp only [firstChild_relTo] at h2
        have l2 : b2.leaf = false := by simp only [BV.leaf, h2, decide_eq_false_iff_not]; omega
        have hk : b2.firstChild.toNat = k := by rw [h2]; simp
        have g3 := h3.bv
        have g4 := h4.bv
        rw [relTree_bv] at g3 g4
        simp only [BTree.height] at hf
        obtain ⟨hO, _, _, _, _, hl, hr⟩ := hB
        simp only [BTree.bv, l1, l2, Bool.and_false, Bool.false_eq_true, if_false, Bool.not_true,
          Bool.false_and, Bool.or_self, hk, g3, g4]
        rw [relR_child2 hO, relTr_child2 hO, relR_child2 hO, relTr_child2 hO]
        simp only [bvDistance_relTo]
        refine Tells.both
          (f := fun res => if bvDistance (relR RR b1 l.bv) (relTr RR TT b1 l.bv) b1 l.bv ≤ tol
            then tolRec tol RR TT o1 o2 f (relR RR b1 l.bv) (relTr RR TT b1 l.bv) n1 k res else some res)
          (g := fun res => if bvDistance (relR RR b1 r.bv) (relTr RR TT b1 r.bv) b1 r.bv ≤ tol
            then tolRec tol RR TT o1 o2 f (relR RR b1 r.bv) (relTr RR TT b1 r.bv) n1 (k + 1) res else some res)
          (l1 := (BTree.leaf b1 i1 t1).tris) (k1 := (BTree.leaf b1 i1 t1).tris) (l2 := l.tris) (k2 := r.tris)
          ?_ ?_ ?_ ?_ ?_ _
        · exact guardedTol hR (A := .leaf b1 i1 t1) hA hl
            (ih (.leaf b1 i1 t1) l p1 b2.R a1 b2.Tr c1 b2.To n1 k
              (by simp only [BTree.height]; omega) hA hl r1 h3
              (fun u1 m1 u2 m2 => hx u1 m1 u2 (by simp [BTree.tris, m2])))
        · exact guardedTol hR (A := .leaf b1 i1 t1) hA hr
            (ih (.leaf b1 i1 t1) r p1 b2.R a1 b2.Tr c1 b2.To n1 (k + 1)
              (by simp only [BTree.height]; omega) hA hr r1 h4
              (fun u1 m1 u2 m2 => hx u1 m1 u2 (by simp [BTree.tris, m2])))
        · intro u1 m1 u2 m2
          exact ⟨m1, by rw [BTree.tris]; simp [m2]⟩
        · intro u1 m1 u2 m2
          exact ⟨m1, by rw [BTree.tris]; simp [m2]⟩
        · intro u1 m1 u2 m2
          simp only [BTree.tris, List.mem_append] at m2
          exact m2.imp (fun h => ⟨m1, h⟩) (fun h => ⟨m1, h⟩)
    | node b1 k l r =>
      obtain ⟨e0, h2, h3, h4⟩ := r1
      have r1 : Rep o1.bvs o1.tris (relTree (.node b1 k l r) p1 a1 c1) n1 := ⟨e0, h2, h3, h4⟩
      simp only [firstChild_relTo] at h2
      have l1 : b1.leaf = false := by simp only [BV.leaf, h2, decide_eq_false_iff_not]; omega
      have hk : b1.firstChild.toNat = k := by rw [h2]; simp
      have g3 := h3.bv
      have g4 := h4.bv
      rw [relTree_bv] at g3 g4
      simp only [BTree.height] at hf
      have hA' := hA
      obtain ⟨hO, _, _, _, _, hl, hr⟩ := hA'
      -- descending in the first tree
      have first : ∀ B : BTree, B.height + max l.height r.height ≤ f → Fits B →
          Rep o2.bvs o2.tris (relTree B p2 a2 c2) n2 → Exact RR TT (BTree.node b1 k l r).tris B.tris →
          Tells tol RR TT (BTree.node b1 k l r).tris B.tris
          (if bvDistance (relR RR r.bv B.bv) (relTr RR TT r.bv B.bv) r.bv B.bv
              < bvDistance (relR RR l.bv B.bv) (relTr RR TT l.bv B.bv) l.bv B.bv then
            match (if bvDistance (relR RR r.bv B.bv) (relTr RR TT r.bv B.bv) r.bv B.bv ≤ tol
                then tolRec tol RR TT o1 o2 f (relR RR r.bv B.bv) (relTr RR TT r.bv B.bv) (k + 1) n2 none
                else some none) with
            | none => none
            | some res =>
              if res.isSome = true then some res
              else if bvDistance (relR RR l.bv B.bv) (relTr RR TT l.bv B.bv) l.bv B.bv ≤ tol
              then tolRec tol RR TT o1 o2 f (relR RR l.bv B.bv) (relTr RR TT l.bv B.bv) k n2 res
              else some res
          else
            match (if bvDistance (relR RR l.bv B.bv) (relTr RR TT l.bv B.bv) l.bv B.bv ≤ tol
              then tolRec tol RR TT o1 o2 f (relR RR l.bv B.bv) (relTr RR TT l.bv B.bv) k n2 none
              else some none) with
            | none => none
            | some res =>
              if res.isSome = true then some res
              else if bvDistance (relR RR r.bv B.bv) (relTr RR TT r.bv B.bv) r.bv B.bv ≤ tol
                then tolRec tol RR TT o1 o2 f (relR RR r.bv B.bv) (relTr RR TT r.bv B.bv) (k + 1) n2 res
                else some res) := by
        intro B hf hB r2 hx
        refine Tells.both
          (f := fun res => if bvDistance (relR RR l.bv B.bv) (relTr RR TT l.bv B.bv) l.bv B.bv ≤ tol
            then tolRec tol RR TT o1 o2 f (relR RR l.bv B.bv) (relTr RR TT l.bv B.bv) k n2 res else some res)
          (g := fun res => if bvDistance (relR RR r.bv B.bv) (relTr RR TT r.bv B.bv) r.bv B.bv ≤ tol
            then tolRec tol RR TT o1 o2 f (relR RR r.bv B.bv) (relTr RR TT r.bv B.bv) (k + 1) n2 res else some res)
          (l1 := l.tris) (k1 := r.tris) (l2 := B.tris) (k2 := B.tris) ?_ ?_ ?_ ?_ ?_ _
        · exact guardedTol hR hl hB
            (ih l B b1.R p2 b1.Tr a2 b1.To c2 k n2 (by omega) hl hB h3 r2
              (fun u1 m1 u2 m2 => hx u1 (by simp [BTree.tris, m1]) u2 m2))
        · exact guardedTol hR hr hB
            (ih r B b1.R p2 b1.Tr a2 b1.To c2 (k + 1) n2 (by omega) hr hB h4 r2
              (fun u1 m1 u2 m2 => hx u1 (by simp [BTree.tris, m1]) u2 m2))
        · intro u1 m1 u2 m2
          exact ⟨by rw [BTree.tris]; simp [m1], m2⟩
        · intro u1 m1 u2 m2
          exact ⟨by rw [BTree.tris]; simp [m1], m2⟩
        · intro u1 m1 u2 m2
          simp only [BTree.tris, List.mem_append] at m1
          exact m1.imp (fun h => ⟨h, m2⟩) (fun h => ⟨h, m2⟩)
      cases B with
      | leaf b2 i2 t2 =>
        have l2 : b2.leaf = true := by
          have := r2.2.1
          simp only [firstChild_relTo] at this
          simp only [BV.leaf, this, decide_eq_true_eq]; omega
        have := first (.leaf b2 i2 t2) (by simp only [BTree.height] at hf ⊢; omega) hB r2 hx
        simp only [BTree.bv] at this
        simp only [BTree.bv, l1, l2, Bool.false_and, Bool.false_eq_true, if_false, Bool.true_or,
          if_true, hk, g3, g4]
        rw [relR_child1 hO, relTr_child1 hO, relR_child1 hO, relTr_child1 hO]
        simp only [bvDistance_relTo]
        exact this
      | node b2 k2 l' r' =>
        have r2' := r2
        obtain ⟨_, q2, q3, q4⟩ := r2
        simp only [firstChild_relTo] at q2
        have l2 : b2.leaf = false := by simp only [BV.leaf, q2, decide_eq_false_iff_not]; omega
        have hk2 : b2.firstChild.toNat = k2 := by rw [q2]; simp
        by_cases hsz : b1.size > b2.size
        · have := first (.node b2 k2 l' r') (by simp only [BTree.height] at hf ⊢; omega) hB r2' hx
          simp only [BTree.bv] at this
          simp only [BTree.bv, l1, l2, Bool.false_and, Bool.false_eq_true, if_false, Bool.false_or,
            if_true, hk, g3, g4, hsz, decide_true, Bool.not_false, Bool.and_true]
          rw [relR_child1 hO, relTr_child1 hO, relR_child1 hO, relTr_child1 hO]
          simp only [bvDistance_relTo]
          exact this
        · have s3 := q3.bv
          have s4 := q4.bv
          rw [relTree_bv] at s3 s4
          simp only [BTree.height] at hf
          obtain ⟨hO2, _, _, _, _, hl', hr'⟩ := hB
          simp only [BTree.bv, l1, l2, Bool.false_eq_true, if_false, hsz, decide_false,
            Bool.and_false, Bool.or_self, hk2, s3, s4]
          rw [relR_child2 hO2, relTr_child2 hO2, relR_child2 hO2, relTr_child2 hO2]
          simp only [bvDistance_relTo]
          refine Tells.both
            (f := fun res => if bvDistance (relR RR b1 l'.bv) (relTr RR TT b1 l'.bv) b1 l'.bv ≤ tol
              then tolRec tol RR TT o1 o2 f (relR RR b1 l'.bv) (relTr RR TT b1 l'.bv) n1 k2 res else some res)
            (g := fun res => if bvDistance (relR RR b1 r'.bv) (relTr RR TT b1 r'.bv) b1 r'.bv ≤ tol
              then tolRec tol RR TT o1 o2 f (relR RR b1 r'.bv) (relTr RR TT b1 r'.bv) n1 (k2 + 1) res else some res)
            (l1 := (BTree.node b1 k l r).tris) (k1 := (BTree.node b1 k l r).tris) (l2 := l'.tris)
            (k2 := r'.tris) ?_ ?_ ?_ ?_ ?_ _
          · exact guardedTol hR (A := .node b1 k l r) hA hl'
              (ih (.node b1 k l r) l' p1 b2.R a1 b2.Tr c1 b2.To n1 k2
                (by simp only [BTree.height]; omega) hA hl' r1 q3
                (fun u1 m1 u2 m2 => hx u1 m1 u2 (by rw [BTree.tris]; simp [m2])))
          · exact guardedTol hR (A := .node b1 k l r) hA hr'
              (ih (.node b1 k l r) r' p1 b2.R a1 b2.Tr c1 b2.To n1 (k2 + 1)
                (by simp only [BTree.height]; omega) hA hr' r1 q4
                (fun u1 m1 u2 m2 => hx u1 m1 u2 (by rw [BTree.tris]; simp [m2])))
          · intro u1 m1 u2 m2
            exact ⟨m1, by rw [BTree.tris]; simp [m2]⟩
          · intro u1 m1 u2 m2
            exact ⟨m1, by rw [BTree.tris]; simp [m2]⟩
          · intro u1 m1 u2 m2
            rw [BTree.tris, List.mem_append] at m2
            exact m2.imp (fun h => ⟨m1, h⟩) (fun h => ⟨m1, h⟩)

end Simox.Pqp
