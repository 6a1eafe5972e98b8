/-
What the traversals for distance and tolerance queries compute.
-/
import Verif.Pqp.Traverse

namespace Simox.Pqp

/-- The record made from two triangles. -/
noncomputable def recOf (RR : M3) (TT : V3) (i j : Nat) (t1 t2 : Tri) : DRes :=
  ⟨(triDistance RR TT t1 t2).d, (triDistance RR TT t1 t2).p, (triDistance RR TT t1 t2).q, t1.id, t2.id, i, j⟩

/-- A result stems from a pair of triangles. -/
def Stems (RR : M3) (TT : V3) (o1 o2 : Model) (res : DRes) : Prop :=
  ∃ i j t1 t2, o1.tris[i]? = some t1 ∧ o2.tris[j]? = some t2 ∧ res = recOf RR TT i j t1 t2

/-- The test of triangles never gives too large a distance. -/
def Exact (RR : M3) (TT : V3) (l1 l2 : List Tri) : Prop :=
  ∀ t1 ∈ l1, ∀ t2 ∈ l2, ∀ p q, t1.has p → t2.has q → (triDistance RR TT t1 t2).d ≤ gap RR TT p q

/-- The result is as small as promised for all points of the given triangles. -/
def Within (rel abs : ℝ) (RR : M3) (TT : V3) (l1 l2 : List Tri) (res : DRes) : Prop :=
  ∀ t1 ∈ l1, ∀ t2 ∈ l2, ∀ p q, t1.has p → t2.has q →
    res.dist ≤ gap RR TT p q + abs ∧ res.dist ≤ gap RR TT p q * (1 + rel)

theorem Within.mono {rel abs : ℝ} {RR : M3} {TT : V3} {l1 l2 : List Tri} {res res' : DRes}
    (h : Within rel abs RR TT l1 l2 res) (hle : res'.dist ≤ res.dist) :
    Within rel abs RR TT l1 l2 res' := by
  intro t1 h1 t2 h2 p q hp hq
  obtain ⟨a, b⟩ := h t1 h1 t2 h2 p q hp hq
  exact ⟨hle.trans a, hle.trans b⟩

/-- Outcome of a (sub)query started with `res`. -/
def Goes (rel abs : ℝ) (RR : M3) (TT : V3) (o1 o2 : Model) (l1 l2 : List Tri) (res : DRes)
    (out : Option DRes) : Prop :=
  ∃ res', out = some res' ∧ Stems RR TT o1 o2 res' ∧ res'.dist ≤ res.dist ∧
    Within rel abs RR TT l1 l2 res'

/-- A subquery behind a test of bounding volumes. -/
theorem guarded {rel abs : ℝ} (hrel : 0 ≤ rel) {RR : M3} (hR : Orthonormal RR) {TT : V3} {o1 o2 : Model}
    {A B : BTree} (hA : Fits A) (hB : Fits B) {res : DRes} (hs : Stems RR TT o1 o2 res)
    {out : Option DRes} (h : Goes rel abs RR TT o1 o2 A.tris B.tris res out) :
    Goes rel abs RR TT o1 o2 A.tris B.tris res
      (if closer rel abs (bvDistance (relR RR A.bv B.bv) (relTr RR TT A.bv B.bv) A.bv B.bv) res then out
        else some res) := by
  by_cases hc : closer rel abs (bvDistance (relR RR A.bv B.bv) (relTr RR TT A.bv B.bv) A.bv B.bv) res = true
  · rw [if_pos hc]; exact h
  · rw [if_neg hc]
    refine ⟨res, rfl, hs, le_refl _, ?_⟩
    intro t1 h1 t2 h2 p q hp hq
    have hb := bvDistance_le hR (TT := TT) hA hB h1 h2 hp hq
    generalize bvDistance (relR RR A.bv B.bv) (relTr RR TT A.bv B.bv) A.bv B.bv = d at *
    simp only [closer, Bool.or_eq_true, decide_eq_true_eq, not_or, not_lt] at hc
    obtain ⟨c1, c2⟩ := hc
    constructor
    · linarith
    · refine c2.trans ?_
      have : 0 ≤ 1 + rel := by linarith
      exact mul_le_mul_of_nonneg_right hb this

/-- Two subqueries, the second one with the result of the first. -/
theorem Goes.seq {rel abs : ℝ} {RR : M3} {TT : V3} {o1 o2 : Model} {l1 l2 k1 k2 m1 m2 : List Tri}
    {res : DRes} {out : Option DRes} {next : DRes → Option DRes}
    (h : Goes rel abs RR TT o1 o2 l1 l2 res out)
    (h' : ∀ res', Stems RR TT o1 o2 res' → Goes rel abs RR TT o1 o2 k1 k2 res' (next res'))
    (hc : ∀ t1 ∈ m1, ∀ t2 ∈ m2, (t1 ∈ l1 ∧ t2 ∈ l2) ∨ (t1 ∈ k1 ∧ t2 ∈ k2)) :
    Goes rel abs RR TT o1 o2 m1 m2 res
      (match (generalizing := false) out with
        | none => none
        | some res => next res) := by
  obtain ⟨res', e, s, le, w⟩ := h
  subst e
  obtain ⟨res'', e, s', le', w'⟩ := h' res' s
  refine ⟨res'', e, s', le'.trans le, ?_⟩
  intro t1 h1 t2 h2
  rcases hc t1 h1 t2 h2 with ⟨a, b⟩ | ⟨a, b⟩
  · exact (w.mono le') t1 a t2 b
  · exact w' t1 a t2 b

/-- Two subqueries in the order the distances of the volumes suggest. -/
theorem Goes.both {rel abs : ℝ} {RR : M3} {TT : V3} {o1 o2 : Model} {l1 l2 k1 k2 m1 m2 : List Tri}
    {res : DRes} (hs : Stems RR TT o1 o2 res) {f g : DRes → Option DRes}
    (hf : ∀ res', Stems RR TT o1 o2 res' → Goes rel abs RR TT o1 o2 l1 l2 res' (f res'))
    (hg : ∀ res', Stems RR TT o1 o2 res' → Goes rel abs RR TT o1 o2 k1 k2 res' (g res'))
    (hc : ∀ t1 ∈ m1, ∀ t2 ∈ m2, (t1 ∈ l1 ∧ t2 ∈ l2) ∨ (t1 ∈ k1 ∧ t2 ∈ k2)) (c : Prop) [Decidable c] :
    Goes rel abs RR TT o1 o2 m1 m2 res
      (if c then (match g res with
        | none => none
        | some res => f res)
      else (match f res with
        | none => none
        | some res => g res)) := by
  split_ifs
  · exact (hg res hs).seq hf (fun t1 h1 t2 h2 => (hc t1 h1 t2 h2).symm)
  · exact (hf res hs).seq hg hc

theorem distRec_spec {rel abs : ℝ} (hrel : 0 ≤ rel) (habs : 0 ≤ abs) {RR : M3} (hR : Orthonormal RR)
    (TT : V3) (o1 o2 : Model) : ∀ (f : Nat) (A B : BTree)
    (p1 p2 : M3) (a1 a2 c1 c2 : V3) (n1 n2 : Nat) (res : DRes),
    A.height + B.height ≤ f → Fits A → Fits B →
    Rep o1.bvs o1.tris (relTree A p1 a1 c1) n1 → Rep o2.bvs o2.tris (relTree B p2 a2 c2) n2 →
    Exact RR TT A.tris B.tris → Stems RR TT o1 o2 res →
    Goes rel abs RR TT o1 o2 A.tris B.tris res
      (distRec rel abs RR TT o1 o2 f (relR RR A.bv B.bv) (relTr RR TT A.bv B.bv) n1 n2 res) := by
  intro f
  induction f with
  | zero =>
    intro A B _ _ _ _ _ _ _ _ _ hf
    have : 0 < A.height := by cases A <;> simp [BTree.height]
    omega
  | succ f ih =>
    intro A B p1 p2 a1 a2 c1 c2 n1 n2 res hf hA hB r1 r2 hx hs
    have e1 := r1.bv
    have e2 := r2.bv
    rw [relTree_bv] at e1 e2
    unfold distRec
    simp only [e1, e2, leaf_relTo, size_relTo, firstChild_relTo, descendFirst]
    cases A with
    | leaf b1 i1 t1 =>
      have l1 : b1.leaf = true := by
        have := r1.2.1
        simp only [firstChild_relTo] at this
        simp only [BV.leaf, this, decide_eq_true_eq]; omega
      cases B with
      | leaf b2 i2 t2 =>
        have l2 : b2.leaf = true := by
          have := r2.2.1
          simp only [firstChild_relTo] at this
          simp only [BV.leaf, this, decide_eq_true_eq]; omega
        obtain ⟨_, f1, g1⟩ := r1
        obtain ⟨_, f2, g2⟩ := r2
        have j1 : (relTo p1 a1 c1 b1).triIdx = i1 := by
          unfold BV.triIdx; rw [f1]; omega
        have j2 : (relTo p2 a2 c2 b2).triIdx = i2 := by
          unfold BV.triIdx; rw [f2]; omega
        have x1 : o1.tri (relTo p1 a1 c1 b1) = some t1 := by
          unfold Model.tri
          rw [f1]
          have : (-(-((i1 : Int) + 1)) - 1).toNat = i1 := by omega
          rw [this]; exact g1
        have x2 : o2.tri (relTo p2 a2 c2 b2) = some t2 := by
          unfold Model.tri
          rw [f2]
          have : (-(-((i2 : Int) + 1)) - 1).toNat = i2 := by omega
          rw [this]; exact g2
        simp only [BTree.bv, l1, l2, Bool.and_self, if_true, x1, x2, j1, j2]
        have hd := hx t1 (by simp [BTree.tris]) t2 (by simp [BTree.tris])
        have bound : ∀ res' : DRes, res'.dist ≤ (triDistance RR TT t1 t2).d →
            Within rel abs RR TT (BTree.leaf b1 i1 t1).tris (BTree.leaf b2 i2 t2).tris res' := by
          intro res' hle u1 hu1 u2 hu2 p q hp hq
          simp only [BTree.tris, List.mem_singleton] at hu1 hu2
          subst hu1; subst hu2
          have h1 := hle.trans (hd p q hp hq)
          have h2 := mul_nonneg (gap_nonneg RR TT p q) hrel
          constructor
          · linarith
          · linarith
        refine ⟨_, rfl, ?_, ?_, bound _ ?_⟩
        · unfold distLeaf
          simp only
          split_ifs
          · exact ⟨i1, i2, t1, t2, g1, g2, rfl⟩
          · exact hs
        · unfold distLeaf
          simp only
          split_ifs with hlt
          · exact hlt.le
          · exact le_refl _
        · unfold distLeaf
          simp only
          split_ifs with hlt
          · exact le_refl _
          · exact not_lt.mp hlt
      | node b2 k l r =>
        obtain ⟨_, h2, h3, h4⟩ := r2
        simp only [firstChild_relTo] at h2
        have l2 : b2.leaf = false := by simp only [BV.leaf, h2, decide_eq_false_iff_not]; omega
        have hk : b2.firstChild.toNat = k := by rw [h2]; simp
        have g3 := h3.bv
        have g4 := h4.bv
        rw [relTree_bv] at g3 g4
        simp only [BTree.height] at hf
        obtain ⟨hO, _, _, _, _, hl, hr⟩ := hB
        simp only [BTree.bv, l1, l2, Bool.and_false, Bool.false_eq_true, if_false, Bool.not_true,
          Bool.false_and, Bool.or_self, hk, g3, g4]
        rw [relR_child2 hO, relTr_child2 hO, relR_child2 hO, relTr_child2 hO]
        simp only [bvDistance_relTo]
        refine Goes.both hs
          (f := fun res => if closer rel abs (bvDistance (relR RR b1 l.bv) (relTr RR TT b1 l.bv) b1 l.bv) res = true
            then distRec rel abs RR TT o1 o2 f (relR RR b1 l.bv) (relTr RR TT b1 l.bv) n1 k res else some res)
          (g := fun res => if closer rel abs (bvDistance (relR RR b1 r.bv) (relTr RR TT b1 r.bv) b1 r.bv) res = true
            then distRec rel abs RR TT o1 o2 f (relR RR b1 r.bv) (relTr RR TT b1 r.bv) n1 (k + 1) res else some res)
          (l1 := (BTree.leaf b1 i1 t1).tris) (k1 := (BTree.leaf b1 i1 t1).tris) (l2 := l.tris) (k2 := r.tris)
          ?_ ?_ ?_ _
        · intro res' hs'
          exact guarded hrel hR (A := .leaf b1 i1 t1) hA hl hs'
            (ih (.leaf b1 i1 t1) l p1 b2.R a1 b2.Tr c1 b2.To n1 k res'
              (by simp only [BTree.height]; omega) hA hl r1 h3
              (fun u1 m1 u2 m2 => hx u1 m1 u2 (by simp [BTree.tris, m2])) hs')
        · intro res' hs'
          exact guarded hrel hR (A := .leaf b1 i1 t1) hA hr hs'
            (ih (.leaf b1 i1 t1) r p1 b2.R a1 b2.Tr c1 b2.To n1 (k + 1) res'
              (by simp only [BTree.height]; omega) hA hr r1 h4
              (fun u1 m1 u2 m2 => hx u1 m1 u2 (by simp [BTree.tris, m2])) hs')
        · intro u1 m1 u2 m2
          simp only [BTree.tris, List.mem_append] at m2
          exact m2.imp (fun h => ⟨m1, h⟩) (fun h => ⟨m1, h⟩)
    | node b1 k l r =>
      obtain ⟨e0, h2, h3, h4⟩ := r1
      have r1 : Rep o1.bvs o1.tris (relTree (.node b1 k l r) p1 a1 c1) n1 := ⟨e0, h2, h3, h4⟩
      simp only [firstChild_relTo] at h2
      have l1 : b1.leaf = false := by simp only [BV.leaf, h2, decide_eq_false_iff_not]; omega
      have hk : b1.firstChild.toNat = k := by rw [h2]; simp
      have g3 := h3.bv
      have g4 := h4.bv
      rw [relTree_bv] at g3 g4
      simp only [BTree.height] at hf
      have hA' := hA
      obtain ⟨hO, _, _, _, _, hl, hr⟩ := hA'
      -- descending in the first tree
      have first : ∀ B : BTree, B.height + max l.height r.height ≤ f → Fits B →
          Rep o2.bvs o2.tris (relTree B p2 a2 c2) n2 → Exact RR TT (BTree.node b1 k l r).tris B.tris →
          Goes rel abs RR TT o1 o2 (BTree.node b1 k l r).tris B.tris res
          (if bvDistance (relR RR r.bv B.bv) (relTr RR TT r.bv B.bv) r.bv B.bv
              < bvDistance (relR RR l.bv B.bv) (relTr RR TT l.bv B.bv) l.bv B.bv then
            match (if closer rel abs (bvDistance (relR RR r.bv B.bv) (relTr RR TT r.bv B.bv) r.bv B.bv) res = true
                then distRec rel abs RR TT o1 o2 f (relR RR r.bv B.bv) (relTr RR TT r.bv B.bv) (k + 1) n2 res
                else some res) with
            | none => none
            | some res =>
              if closer rel abs (bvDistance (relR RR l.bv B.bv) (relTr RR TT l.bv B.bv) l.bv B.bv) res = true
              then distRec rel abs RR TT o1 o2 f (relR RR l.bv B.bv) (relTr RR TT l.bv B.bv) k n2 res
              else some res
          else
            match (if closer rel abs (bvDistance (relR RR l.bv B.bv) (relTr RR TT l.bv B.bv) l.bv B.bv) res = true
              then distRec rel abs RR TT o1 o2 f (relR RR l.bv B.bv) (relTr RR TT l.bv B.bv) k n2 res
              else some res) with
            | none => none
            | some res =>
              if closer rel abs (bvDistance (relR RR r.bv B.bv) (relTr RR TT r.bv B.bv) r.bv B.bv) res = true
                then distRec rel abs RR TT o1 o2 f (relR RR r.bv B.bv) (relTr RR TT r.bv B.bv) (k + 1) n2 res
                else some res) := by
        intro B hf hB r2 hx
        refine Goes.both hs
          (f := fun res => if closer rel abs (bvDistance (relR RR l.bv B.bv) (relTr RR TT l.bv B.bv) l.bv B.bv) res = true
            then distRec rel abs RR TT o1 o2 f (relR RR l.bv B.bv) (relTr RR TT l.bv B.bv) k n2 res else some res)
          (g := fun res => if closer rel abs (bvDistance (relR RR r.bv B.bv) (relTr RR TT r.bv B.bv) r.bv B.bv) res = true
            then distRec rel abs RR TT o1 o2 f (relR RR r.bv B.bv) (relTr RR TT r.bv B.bv) (k + 1) n2 res else some res)
          (l1 := l.tris) (k1 := r.tris) (l2 := B.tris) (k2 := B.tris) ?_ ?_ ?_ _
        · intro res' hs'
          exact guarded hrel hR hl hB hs'
            (ih l B b1.R p2 b1.Tr a2 b1.To c2 k n2 res' (by omega) hl hB h3 r2
              (fun u1 m1 u2 m2 => hx u1 (by simp [BTree.tris, m1]) u2 m2) hs')
        · intro res' hs'
          exact guarded hrel hR hr hB hs'
            (ih r B b1.R p2 b1.Tr a2 b1.To c2 (k + 1) n2 res' (by omega) hr hB h4 r2
              (fun u1 m1 u2 m2 => hx u1 (by simp [BTree.tris, m1]) u2 m2) hs')
        · intro u1 m1 u2 m2
          simp only [BTree.tris, List.mem_append] at m1
          exact m1.imp (fun h => ⟨h, m2⟩) (fun h => ⟨h, m2⟩)
      cases B with
      | leaf b2 i2 t2 =>
        have l2 : b2.leaf = true := by
          have := r2.2.1
          simp only [firstChild_relTo] at this
          simp only [BV.leaf, this, decide_eq_true_eq]; omega
        have := first (.leaf b2 i2 t2) (by simp only [BTree.height] at hf ⊢; omega) hB r2 hx
        simp only [BTree.bv] at this
        simp only [BTree.bv, l1, l2, Bool.false_and, Bool.false_eq_true, if_false, Bool.true_or,
          if_true, hk, g3, g4]
        rw [relR_child1 hO, relTr_child1 hO, relR_child1 hO, relTr_child1 hO]
        simp only [bvDistance_relTo]
        exact this
      | node b2 k2 l' r' =>
        have r2' := r2
        obtain ⟨_, q2, q3, q4⟩ := r2
        simp only [firstChild_relTo] at q2
        have l2 : b2.leaf = false := by simp only [BV.leaf, q2, decide_eq_false_iff_not]; omega
        have hk2 : b2.firstChild.toNat = k2 := by rw [q2]; simp
        by_cases hsz : b1.size > b2.size
        · have := first (.node b2 k2 l' r') (by simp only [BTree.height] at hf ⊢; omega) hB r2' hx
          simp only [BTree.bv] at this
          simp only [BTree.bv, l1, l2, Bool.false_and, Bool.false_eq_true, if_false, Bool.false_or,
            if_true, hk, g3, g4, hsz, decide_true, Bool.not_false, Bool.and_true]
          rw [relR_child1 hO, relTr_child1 hO, relR_child1 hO, relTr_child1 hO]
          simp only [bvDistance_relTo]
          exact this
        · have s3 := q3.bv
          have s4 := q4.bv
          rw [relTree_bv] at s3 s4
          simp only [BTree.height] at hf
          obtain ⟨hO2, _, _, _, _, hl', hr'⟩ := hB
          simp only [BTree.bv, l1, l2, Bool.false_eq_true, if_false, hsz, decide_false,
            Bool.and_false, Bool.or_self, hk2, s3, s4]
          rw [relR_child2 hO2, relTr_child2 hO2, relR_child2 hO2, relTr_child2 hO2]
          simp only [bvDistance_relTo]
          refine Goes.both hs
            (f := fun res => if closer rel abs (bvDistance (relR RR b1 l'.bv) (relTr RR TT b1 l'.bv) b1 l'.bv) res = true
              then distRec rel abs RR TT o1 o2 f (relR RR b1 l'.bv) (relTr RR TT b1 l'.bv) n1 k2 res else some res)
            (g := fun res => if closer rel abs (bvDistance (relR RR b1 r'.bv) (relTr RR TT b1 r'.bv) b1 r'.bv) res = true
              then distRec rel abs RR TT o1 o2 f (relR RR b1 r'.bv) (relTr RR TT b1 r'.bv) n1 (k2 + 1) res else some res)
            (l1 := (BTree.node b1 k l r).tris) (k1 := (BTree.node b1 k l r).tris) (l2 := l'.tris)
            (k2 := r'.tris) ?_ ?_ ?_ _
          · intro res' hs'
            exact guarded hrel hR (A := .node b1 k l r) hA hl' hs'
              (ih (.node b1 k l r) l' p1 b2.R a1 b2.Tr c1 b2.To n1 k2 res'
                (by simp only [BTree.height]; omega) hA hl' r1 q3
                (fun u1 m1 u2 m2 => hx u1 m1 u2 (by rw [BTree.tris]; simp [m2])) hs')
          · intro res' hs'
            exact guarded hrel hR (A := .node b1 k l r) hA hr' hs'
              (ih (.node b1 k l r) r' p1 b2.R a1 b2.Tr c1 b2.To n1 (k2 + 1) res'
                (by simp only [BTree.height]; omega) hA hr' r1 q4
                (fun u1 m1 u2 m2 => hx u1 m1 u2 (by rw [BTree.tris]; simp [m2])) hs')
          · intro u1 m1 u2 m2
            rw [BTree.tris, List.mem_append] at m2
            exact m2.imp (fun h => ⟨m1, h⟩) (fun h => ⟨m1, h⟩)

end Simox.Pqp
