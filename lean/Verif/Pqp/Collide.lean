/-
The collision query as a function of two trees.
-/
import Verif.Pqp.Tree2
import Verif.Pqp.Geom2

namespace Simox.Pqp

/-- The pairs of triangles the traversal tests successfully, in order. -/
noncomputable def hits (RR : M3) (TT : V3) (A B : BTree) : List (Tri × Tri) :=
  if overlap (relR RR A.bv B.bv) (relT RR TT A.bv B.bv) A.bv B.bv = false then [] else
  match A, B with
  | .leaf _ _ t1, .leaf _ _ t2 =>
    if triContact t1.p1 t1.p2 t1.p3 (mulVpV RR t2.p1 TT) (mulVpV RR t2.p2 TT) (mulVpV RR t2.p3 TT)
    then [(t1, t2)] else []
  | .leaf b i t, .node _ _ l r => hits RR TT (.leaf b i t) l ++ hits RR TT (.leaf b i t) r
  | .node _ _ l r, .leaf b i t => hits RR TT l (.leaf b i t) ++ hits RR TT r (.leaf b i t)
  | .node b1 k1 l1 r1, .node b2 k2 l2 r2 =>
    if b1.size > b2.size then hits RR TT l1 (.node b2 k2 l2 r2) ++ hits RR TT r1 (.node b2 k2 l2 r2)
    else hits RR TT (.node b1 k1 l1 r1) l2 ++ hits RR TT (.node b1 k1 l1 r1) r2
termination_by sizeOf A + sizeOf B

/-- The reported numbers. -/
def idPair (p : Tri × Tri) : Int × Int := (p.1.id, p.2.id)

/-- The list of pairs after a (sub)query. -/
def upd (fo : Bool) (pairs new : List (Int × Int)) : List (Int × Int) :=
  if fo then new.take 1 else pairs ++ new

theorem overlap_relTo {R : M3} {T : V3} (a b : M3) (c d e f : V3) (x y : BV) :
    overlap R T (relTo a c d x) (relTo b e f y) = overlap R T x y := rfl

theorem leaf_relTo (a : M3) (c d : V3) (x : BV) : (relTo a c d x).leaf = x.leaf := rfl

theorem size_relTo (a : M3) (c d : V3) (x : BV) : (relTo a c d x).size = x.size := rfl

theorem firstChild_relTo (a : M3) (c d : V3) (x : BV) : (relTo a c d x).firstChild = x.firstChild := rfl

theorem Fits.orth {t : BTree} (h : Fits t) : Orthonormal t.bv.R := by
  cases t <;> exact h.1

theorem Fits.dims {t : BTree} (h : Fits t) : 0 ≤ t.bv.r ∧ 0 ≤ t.bv.l0 ∧ 0 ≤ t.bv.l1 := by
  cases t <;> exact ⟨h.2.1, h.2.2.1, h.2.2.2.1⟩

theorem Fits.covers {t : BTree} (h : Fits t) : ∀ x ∈ t.tris, ∀ p, x.has p → t.bv.box p ∧ t.bv.rss p := by
  cases t with
  | leaf b i t =>
    intro x hx
    simp only [BTree.tris, List.mem_singleton] at hx
    subst hx
    exact h.2.2.2.2
  | node b k l r => exact h.2.2.2.2.1

theorem upd_append (fo : Bool) (pairs h1 h2 : List (Int × Int)) :
    (if fo && decide ((upd fo pairs h1).length > 0) then some (upd fo pairs h1)
      else some (upd fo (upd fo pairs h1) h2)) = some (upd fo pairs (h1 ++ h2)) := by
  cases fo with
  | false => simp [upd]
  | true =>
    cases h1 with
    | nil => simp [upd]
    | cons x h1 => simp [upd]

theorem collideRec_spec (fo : Bool) (RR : M3) (TT : V3) (o1 o2 : Model) : ∀ (f : Nat) (A B : BTree)
    (p1 p2 : M3) (a1 a2 c1 c2 : V3) (n1 n2 : Nat) (pairs : List (Int × Int)),
    A.height + B.height ≤ f → Fits A → Fits B →
    Rep o1.bvs o1.tris (relTree A p1 a1 c1) n1 → Rep o2.bvs o2.tris (relTree B p2 a2 c2) n2 →
    (fo = true → pairs = []) →
    collideRec fo RR TT o1 o2 f (relR RR A.bv B.bv) (relT RR TT A.bv B.bv) n1 n2 pairs
      = some (upd fo pairs ((hits RR TT A B).map idPair)) := by
  intro f
  induction f with
  | zero =>
    intro A B _ _ _ _ _ _ _ _ _ hf
    have : 0 < A.height := by cases A <;> simp [BTree.height]
    omega
  | succ f ih =>
    intro A B p1 p2 a1 a2 c1 c2 n1 n2 pairs hf hA hB r1 r2 hp
    have e1 := r1.bv
    have e2 := r2.bv
    rw [relTree_bv] at e1 e2
    have hpu : upd fo pairs [] = pairs := by
      cases fo
      · simp [upd]
      · simp [upd, hp rfl]
    unfold collideRec
    rw [hits.eq_def]
    simp only [e1, e2, overlap_relTo, leaf_relTo, size_relTo, firstChild_relTo, descendFirst]
    by_cases ho : overlap (relR RR A.bv B.bv) (relT RR TT A.bv B.bv) A.bv B.bv = false
    · simp [ho, hpu]
    rw [if_neg ho]
    rw [Bool.not_eq_false] at ho
    simp only [ho, Bool.not_true, Bool.false_eq_true, if_false]
    -- continuing after the first of two subqueries
    have next : ∀ (x y : List (Int × Int)), (fo && decide ((upd fo pairs x).length > 0)) = false →
        fo = true → upd fo pairs x = [] := by
      intro x y h1 h2
      subst h2
      simpa using h1
    cases A with
    | leaf b1 i1 t1 =>
      have l1 : b1.leaf = true := by
        have := r1.2.1
        simp only [firstChild_relTo] at this
        simp only [BV.leaf, this, decide_eq_true_eq]; omega
      cases B with
      | leaf b2 i2 t2 =>
        have l2 : b2.leaf = true := by
          have := r2.2.1
          simp only [firstChild_relTo] at this
          simp only [BV.leaf, this, decide_eq_true_eq]; omega
        have x1 : o1.tri (relTo p1 a1 c1 b1) = some t1 := by
          obtain ⟨_, h2, h3⟩ := r1
          unfold Model.tri
          rw [h2]
          have : (-(-((i1 : Int) + 1)) - 1).toNat = i1 := by omega
          rw [this]; exact h3
        have x2 : o2.tri (relTo p2 a2 c2 b2) = some t2 := by
          obtain ⟨_, h2, h3⟩ := r2
          unfold Model.tri
          rw [h2]
          have : (-(-((i2 : Int) + 1)) - 1).toNat = i2 := by omega
          rw [this]; exact h3
        simp only [BTree.bv, l1, l2, Bool.and_self, if_true, x1, x2, leafTest]
        split_ifs
        · cases fo
          · simp [upd, idPair]
          · simp [upd, idPair, hp rfl]
        · simp [hpu]
      | node b2 k l r =>
        obtain ⟨_, h2, h3, h4⟩ := r2
        simp only [firstChild_relTo] at h2
        have l2 : b2.leaf = false := by simp only [BV.leaf, h2, decide_eq_false_iff_not]; omega
        have hk : b2.firstChild.toNat = k := by rw [h2]; simp
        have g3 := h3.bv
        have g4 := h4.bv
        rw [relTree_bv] at g3 g4
        simp only [BTree.height] at hf
        obtain ⟨hO, _, _, _, _, hl, hr⟩ := hB
        simp only [BTree.bv, l1, l2, Bool.and_false, Bool.false_eq_true, if_false, Bool.not_true,
          Bool.false_and, Bool.or_self, hk, g3, g4]
        rw [relR_child2 hO, relT_child2 hO, relR_child2 hO, relT_child2 hO]
        have i3 := ih (.leaf b1 i1 t1) l p1 b2.R a1 b2.Tr c1 b2.To n1 k pairs
          (by simp only [BTree.height]; omega) hA hl r1 h3 hp
        simp only [BTree.bv] at i3
        rw [i3]
        rw [List.map_append, ← upd_append]
        simp only
        split_ifs with hc
        · rfl
        · have i4 := ih (.leaf b1 i1 t1) r p1 b2.R a1 b2.Tr c1 b2.To n1 (k + 1)
            (upd fo pairs ((hits RR TT (.leaf b1 i1 t1) l).map idPair))
            (by simp only [BTree.height]; omega) hA hr r1 h4 (next _ [] (by simpa using hc))
          exact i4
    | node b1 k l r =>
      obtain ⟨e0, h2, h3, h4⟩ := r1
      have r1 : Rep o1.bvs o1.tris (relTree (.node b1 k l r) p1 a1 c1) n1 := ⟨e0, h2, h3, h4⟩
      simp only [firstChild_relTo] at h2
      have l1 : b1.leaf = false := by simp only [BV.leaf, h2, decide_eq_false_iff_not]; omega
      have hk : b1.firstChild.toNat = k := by rw [h2]; simp
      have g3 := h3.bv
      have g4 := h4.bv
      rw [relTree_bv] at g3 g4
      simp only [BTree.height] at hf
      have hA' := hA
      obtain ⟨hO, _, _, _, _, hl, hr⟩ := hA'
      -- descending in the first tree
      have first : ∀ B : BTree, B.height + max l.height r.height ≤ f → Fits B →
          Rep o2.bvs o2.tris (relTree B p2 a2 c2) n2 →
          (match some (relTo b1.R b1.Tr b1.To l.bv), some (relTo b1.R b1.Tr b1.To r.bv) with
          | some k1, some k2 =>
            match collideRec fo RR TT o1 o2 f (tmulM k1.R (relR RR b1 B.bv))
                (tmulV k1.R (vsub (relT RR TT b1 B.bv) k1.To)) k n2 pairs with
            | none => none
            | some ps =>
              if fo && decide (ps.length > 0) then some ps
              else collideRec fo RR TT o1 o2 f (tmulM k2.R (relR RR b1 B.bv))
                (tmulV k2.R (vsub (relT RR TT b1 B.bv) k2.To)) (k + 1) n2 ps
          | _, _ => none) = some (upd fo pairs ((hits RR TT l B ++ hits RR TT r B).map idPair)) := by
        intro B hf hB r2
        simp only
        rw [relR_child1 hO, relT_child1 hO, relR_child1 hO, relT_child1 hO]
        have i3 := ih l B b1.R p2 b1.Tr a2 b1.To c2 k n2 pairs (by omega) hl hB h3 r2 hp
        rw [i3, List.map_append, ← upd_append]
        simp only
        split_ifs with hc
        · rfl
        · exact ih r B b1.R p2 b1.Tr a2 b1.To c2 (k + 1) n2 _ (by omega) hr hB h4 r2
            (next _ [] (by simpa using hc))
      cases B with
      | leaf b2 i2 t2 =>
        have l2 : b2.leaf = true := by
          have := r2.2.1
          simp only [firstChild_relTo] at this
          simp only [BV.leaf, this, decide_eq_true_eq]; omega
        have := first (.leaf b2 i2 t2) (by simp only [BTree.height] at hf ⊢; omega) hB r2
        simp only [BTree.bv] at this
        simp only [BTree.bv, l1, l2, Bool.false_and, Bool.false_eq_true, if_false, Bool.true_or,
          if_true, hk, g3, g4]
        exact this
      | node b2 k2 l' r' =>
        have r2' := r2
        obtain ⟨_, q2, q3, q4⟩ := r2
        simp only [firstChild_relTo] at q2
        have l2 : b2.leaf = false := by simp only [BV.leaf, q2, decide_eq_false_iff_not]; omega
        have hk2 : b2.firstChild.toNat = k2 := by rw [q2]; simp
        by_cases hs : b1.size > b2.size
        · have := first (.node b2 k2 l' r') (by simp only [BTree.height] at hf ⊢; omega) hB r2'
          simp only [BTree.bv] at this
          simp only [BTree.bv, l1, l2, Bool.false_and, Bool.false_eq_true, if_false, Bool.false_or,
            if_true, hk, g3, g4, hs, decide_true, Bool.not_false, Bool.and_true]
          exact this
        · have s3 := q3.bv
          have s4 := q4.bv
          rw [relTree_bv] at s3 s4
          simp only [BTree.height] at hf
          obtain ⟨hO2, _, _, _, _, hl', hr'⟩ := hB
          simp only [BTree.bv, l1, l2, Bool.false_eq_true, if_false, hs, decide_false,
            Bool.and_false, Bool.or_self, hk2, s3, s4]
          rw [relR_child2 hO2, relT_child2 hO2, relR_child2 hO2, relT_child2 hO2]
          have i3 := ih (.node b1 k l r) l' p1 b2.R a1 b2.Tr c1 b2.To n1 k2 pairs
            (by simp only [BTree.height]; omega) hA hl' r1 q3 hp
          simp only [BTree.bv] at i3
          rw [i3, List.map_append, ← upd_append]
          simp only
          split_ifs with hc
          · rfl
          · have i4 := ih (.node b1 k l r) r' p1 b2.R a1 b2.Tr c1 b2.To n1 (k2 + 1)
              (upd fo pairs ((hits RR TT (.node b1 k l r) l').map idPair))
              (by simp only [BTree.height]; omega) hA hr' r1 q4 (next _ [] (by simpa using hc))
            exact i4

/-! ### What is reported -/

/-- Touching, with the second object placed relative to the first. -/
def touchRel (RR : M3) (TT : V3) (t1 t2 : Tri) : Prop :=
  ∃ p q, t1.has p ∧ t2.has q ∧ p = mulVpV RR q TT

theorem overlap_of_touch {RR : M3} (hR : Orthonormal RR) {TT : V3} {A B : BTree} (hA : Fits A)
    (hB : Fits B) {t1 t2 : Tri} (h1 : t1 ∈ A.tris) (h2 : t2 ∈ B.tris) (h : touchRel RR TT t1 t2) :
    overlap (relR RR A.bv B.bv) (relT RR TT A.bv B.bv) A.bv B.bv = true := by
  obtain ⟨p, q, hp, hq, e⟩ := h
  obtain ⟨v, hv, ev⟩ := (hA.covers t1 h1 p hp).1
  obtain ⟨w, hw, ew⟩ := (hB.covers t2 h2 q hq).1
  have hAo := hA.orth
  have hBo := hB.orth
  have key : mulVpV (relR RR A.bv B.bv) w (relT RR TT A.bv B.bv) = v := by
    have : v = tmulV A.bv.R (vsub p A.bv.To) := by
      rw [ev]
      have : vsub (mulVpV A.bv.R v A.bv.To) A.bv.To = mulV A.bv.R v := by
        ext <;> simp only [vsub, mulVpV, mulV] <;> ring
      rw [this, tmulV_mulV hAo]
    rw [this, e, ew]
    unfold relR relT
    ext <;> simp only [mulVpV, tmulM, mulM, mulV, tmulV, vsub, dot] <;> ring
  unfold overlap
  have hO : Orthonormal (relR RR A.bv B.bv) := hAo.tmul (hR.mul hBo)
  rw [obbDisjoint_of_common hO hw (by rw [key]; exact hv)]
  rfl

theorem mem_hits_of_touch {RR : M3} (hR : Orthonormal RR) (TT : V3) (A B : BTree) (hA : Fits A)
    (hB : Fits B) {t1 t2 : Tri} (h1 : t1 ∈ A.tris) (h2 : t2 ∈ B.tris) (h : touchRel RR TT t1 t2) :
    (t1, t2) ∈ hits RR TT A B := by
  have ho := overlap_of_touch hR hA hB h1 h2 h
  rw [hits.eq_def]
  rw [if_neg (by rw [ho]; simp)]
  cases A with
  | leaf b i t =>
    cases B with
    | leaf b' i' t' =>
      simp only [BTree.tris, List.mem_singleton] at h1 h2
      subst h1; subst h2
      obtain ⟨p, q, hp, hq, e⟩ := h
      have := triContact_of_common hp (e ▸ inTri_mulVpV hq RR TT)
      simp [this]
    | node b' k l r =>
      have hB' := hB
      obtain ⟨_, _, _, _, _, hl, hr⟩ := hB'
      rw [BTree.tris, List.mem_append] at h2
      simp only [List.mem_append]
      rcases h2 with h2 | h2
      · exact .inl (mem_hits_of_touch hR TT _ l hA hl h1 h2 h)
      · exact .inr (mem_hits_of_touch hR TT _ r hA hr h1 h2 h)
  | node b k l r =>
    have hA' := hA
    obtain ⟨_, _, _, _, _, hl, hr⟩ := hA'
    cases B with
    | leaf b' i' t' =>
      rw [BTree.tris, List.mem_append] at h1
      simp only [List.mem_append]
      rcases h1 with h1 | h1
      · exact .inl (mem_hits_of_touch hR TT l _ hl hB h1 h2 h)
      · exact .inr (mem_hits_of_touch hR TT r _ hr hB h1 h2 h)
    | node b' k' l' r' =>
      simp only
      split_ifs
      · rw [BTree.tris, List.mem_append] at h1
        simp only [List.mem_append]
        rcases h1 with h1 | h1
        · exact .inl (mem_hits_of_touch hR TT l _ hl hB h1 h2 h)
        · exact .inr (mem_hits_of_touch hR TT r _ hr hB h1 h2 h)
      · have hB' := hB
        obtain ⟨_, _, _, _, _, hl', hr'⟩ := hB'
        rw [BTree.tris, List.mem_append] at h2
        simp only [List.mem_append]
        rcases h2 with h2 | h2
        · exact .inl (mem_hits_of_touch hR TT _ l' hA hl' h1 h2 h)
        · exact .inr (mem_hits_of_touch hR TT _ r' hA hr' h1 h2 h)
termination_by sizeOf A + sizeOf B

end Simox.Pqp
