/-
The reported pairs against all pairs.
-/
import Verif.Pqp.Collide
import Verif.Pqp.Sep2
import Mathlib.Data.List.ProdSigma
import Mathlib.Data.List.Perm.Subperm

namespace Simox.Pqp

/-! ### Triangles -/

theorem cross_proper (t : Tri) : cross (vsub t.p2 t.p1) (vsub t.p3 t.p2) = cross (vsub t.p2 t.p1) (vsub t.p3 t.p1) := by
  ext <;> simp only [cross, vsub] <;> ring

theorem dot_cross_cross (a b : V3) : dot (cross a b) (cross a b) = dot a a * dot b b - dot a b * dot a b := by
  simp only [dot, cross]; ring

theorem cross_move {RR : M3} (hR : Orthonormal RR) (TT a b c : V3) (h : cross (vsub b a) (vsub c b) ≠ zero3) :
    cross (vsub (mulVpV RR b TT) (mulVpV RR a TT)) (vsub (mulVpV RR c TT) (mulVpV RR b TT)) ≠ zero3 := by
  have e : ∀ x y, vsub (mulVpV RR x TT) (mulVpV RR y TT) = mulV RR (vsub x y) := by
    intro x y; ext <;> simp only [vsub, mulVpV, mulV] <;> ring
  rw [e, e]
  intro h0
  apply h
  apply dot_self_eq_zero
  have := dot_cross_cross (mulV RR (vsub b a)) (mulV RR (vsub c b))
  rw [h0, dot_mulV hR, dot_mulV hR, dot_mulV hR, ← dot_cross_cross] at this
  rw [← this]
  simp [dot, zero3]

theorem vsub_inTri {a b c p o : V3} (h : inTri (vsub a o) (vsub b o) (vsub c o) p) :
    inTri a b c (vadd p o) := by
  obtain ⟨u, v, w, hu, hv, hw, hs, rfl⟩ := h
  refine ⟨u, v, w, hu, hv, hw, hs, ?_⟩
  have hw' : w = 1 - u - v := by linarith
  subst hw'
  ext <;> simp only [vsub, vadd] <;> ring

theorem mulVpV_inTri {RR : M3} {a b c TT p : V3} (h : inTri (mulVpV RR a TT) (mulVpV RR b TT) (mulVpV RR c TT) p) :
    ∃ q, inTri a b c q ∧ p = mulVpV RR q TT := by
  obtain ⟨u, v, w, hu, hv, hw, hs, rfl⟩ := h
  refine ⟨_, ⟨u, v, w, hu, hv, hw, hs, rfl⟩, ?_⟩
  have hw' : w = 1 - u - v := by linarith
  subst hw'
  ext <;> simp only [mulVpV] <;> ring

/-- For proper triangles the test is exact. -/
theorem touchRel_of_triContact {RR : M3} (hR : Orthonormal RR) {TT : V3} {t1 t2 : Tri} (h1 : t1.proper)
    (h2 : t2.proper)
    (h : triContact t1.p1 t1.p2 t1.p3 (mulVpV RR t2.p1 TT) (mulVpV RR t2.p2 TT) (mulVpV RR t2.p3 TT) = true) :
    touchRel RR TT t1 t2 := by
  unfold Tri.proper at h1 h2
  rw [← cross_proper] at h1 h2
  have h2' := cross_move hR TT _ _ _ h2
  have sh : ∀ a b c o : V3, cross (vsub b a) (vsub c b) ≠ zero3 →
      cross (vsub (vsub b o) (vsub a o)) (vsub (vsub c o) (vsub b o)) ≠ zero3 := by
    intro a b c o h
    have e : ∀ x y, vsub (vsub x o) (vsub y o) = vsub x y := by
      intro x y; ext <;> simp only [vsub] <;> ring
    rw [e, e]; exact h
  unfold triContact at h
  obtain ⟨x, hx1, hx2⟩ := common_of_contactTests (sh _ _ _ _ h1) (sh _ _ _ _ h2') h
  obtain ⟨q, hq, e⟩ := mulVpV_inTri (vsub_inTri hx2)
  exact ⟨_, q, vsub_inTri hx1, hq, e⟩

theorem triContact_of_touchRel {RR : M3} {TT : V3} {t1 t2 : Tri} (h : touchRel RR TT t1 t2) :
    triContact t1.p1 t1.p2 t1.p3 (mulVpV RR t2.p1 TT) (mulVpV RR t2.p2 TT) (mulVpV RR t2.p3 TT) = true := by
  obtain ⟨p, q, hp, hq, e⟩ := h
  exact triContact_of_common hp (e ▸ inTri_mulVpV hq RR TT)

/-! ### Lists of pairs -/

/-- The test of a pair of triangles. -/
noncomputable def passes (RR : M3) (TT : V3) (p : Tri × Tri) : Bool :=
  triContact p.1.p1 p.1.p2 p.1.p3 (mulVpV RR p.2.p1 TT) (mulVpV RR p.2.p2 TT) (mulVpV RR p.2.p3 TT)

theorem product_append_left (a b c : List Tri) : (a ++ b).product c = a.product c ++ b.product c := by
  simp [List.product, List.flatMap_append]

theorem product_append_right (a b c : List Tri) : (a.product (b ++ c)).Perm (a.product b ++ a.product c) := by
  induction a with
  | nil => exact List.Perm.refl _
  | cons x a ih =>
    have e : ∀ l : List Tri, (x :: a).product l = l.map (Prod.mk x) ++ a.product l := fun l => rfl
    simp only [e, List.map_append, List.append_assoc]
    refine List.Perm.append_left _ ?_
    refine (List.Perm.append_left _ ih).trans ?_
    rw [← List.append_assoc, ← List.append_assoc]
    exact List.Perm.append_right _ List.perm_append_comm

theorem product_perm {a a' b b' : List Tri} (h : a.Perm a') (h' : b.Perm b') :
    (a.product b).Perm (a'.product b') :=
  h.product h'

open Classical in
theorem hits_between {RR : M3} (hR : Orthonormal RR) (TT : V3) (A B : BTree) (hA : Fits A) (hB : Fits B) :
    (hits RR TT A B).Subperm ((A.tris.product B.tris).filter (passes RR TT)) ∧
    ((A.tris.product B.tris).filter (fun p => decide (touchRel RR TT p.1 p.2))).Subperm (hits RR TT A B) := by
  by_cases ho : overlap (relR RR A.bv B.bv) (relT RR TT A.bv B.bv) A.bv B.bv = false
  · have hh : hits RR TT A B = [] := by rw [hits.eq_def, if_pos ho]
    rw [hh]
    refine ⟨List.nil_subperm, ?_⟩
    have : (A.tris.product B.tris).filter (fun p => decide (touchRel RR TT p.1 p.2)) = [] := by
      rw [List.filter_eq_nil_iff]
      rintro ⟨t1, t2⟩ hm
      rw [List.pair_mem_product] at hm
      intro ht
      have := overlap_of_touch hR hA hB hm.1 hm.2 (of_decide_eq_true ht)
      rw [ho] at this
      simp at this
    rw [this]
  · -- splitting the first or the second tree
    have left : ∀ (l r B : BTree), 
        ((hits RR TT l B).Subperm ((l.tris.product B.tris).filter (passes RR TT)) ∧
        ((l.tris.product B.tris).filter (fun p => decide (touchRel RR TT p.1 p.2))).Subperm (hits RR TT l B)) →
        ((hits RR TT r B).Subperm ((r.tris.product B.tris).filter (passes RR TT)) ∧
        ((r.tris.product B.tris).filter (fun p => decide (touchRel RR TT p.1 p.2))).Subperm (hits RR TT r B)) →
        (hits RR TT l B ++ hits RR TT r B).Subperm (((l.tris ++ r.tris).product B.tris).filter (passes RR TT)) ∧
        (((l.tris ++ r.tris).product B.tris).filter (fun p => decide (touchRel RR TT p.1 p.2))).Subperm
          (hits RR TT l B ++ hits RR TT r B) := by
      intro l r B h1 h2
      rw [product_append_left, List.filter_append, List.filter_append]
      exact ⟨h1.1.append h2.1, h1.2.append h2.2⟩
    have right : ∀ (A l r : BTree), 
        ((hits RR TT A l).Subperm ((A.tris.product l.tris).filter (passes RR TT)) ∧
        ((A.tris.product l.tris).filter (fun p => decide (touchRel RR TT p.1 p.2))).Subperm (hits RR TT A l)) →
        ((hits RR TT A r).Subperm ((A.tris.product r.tris).filter (passes RR TT)) ∧
        ((A.tris.product r.tris).filter (fun p => decide (touchRel RR TT p.1 p.2))).Subperm (hits RR TT A r)) →
        (hits RR TT A l ++ hits RR TT A r).Subperm ((A.tris.product (l.tris ++ r.tris)).filter (passes RR TT)) ∧
        ((A.tris.product (l.tris ++ r.tris)).filter (fun p => decide (touchRel RR TT p.1 p.2))).Subperm
          (hits RR TT A l ++ hits RR TT A r) := by
      intro A l r h1 h2
      have hp := product_append_right A.tris l.tris r.tris
      constructor
      · refine List.Subperm.trans ?_ (hp.filter _).symm.subperm
        rw [List.filter_append]
        exact h1.1.append h2.1
      · refine List.Subperm.trans (hp.filter _).subperm ?_
        rw [List.filter_append]
        exact h1.2.append h2.2
    cases A with
    | leaf b i t =>
      cases B with
      | leaf b' i' t' =>
        rw [hits.eq_def, if_neg ho]
        have e : (BTree.leaf b i t).tris.product (BTree.leaf b' i' t').tris = [(t, t')] := by
          simp [BTree.tris, List.product]
        rw [e]
        simp only
        split_ifs with hc
        · have : passes RR TT (t, t') = true := hc
          simp only [List.filter_cons, this, if_true, List.filter_nil]
          refine ⟨List.Subperm.refl _, ?_⟩
          split_ifs
          · exact List.Subperm.refl _
          · exact List.nil_subperm
        · refine ⟨List.nil_subperm, ?_⟩
          have : ¬ touchRel RR TT t t' := fun h => hc (triContact_of_touchRel h)
          simp [this]
      | node b' k l r =>
        have hB' := hB
        obtain ⟨_, _, _, _, _, hl, hr⟩ := hB'
        rw [hits.eq_def, if_neg ho]
        exact right _ l r (hits_between hR TT _ l hA hl) (hits_between hR TT _ r hA hr)
    | node b k l r =>
      have hA' := hA
      obtain ⟨_, _, _, _, _, hl, hr⟩ := hA'
      cases B with
      | leaf b' i' t' =>
        rw [hits.eq_def, if_neg ho]
        exact left l r _ (hits_between hR TT l _ hl hB) (hits_between hR TT r _ hr hB)
      | node b' k' l' r' =>
        rw [hits.eq_def, if_neg ho]
        simp only
        split_ifs
        · exact left l r _ (hits_between hR TT l _ hl hB) (hits_between hR TT r _ hr hB)
        · have hB' := hB
          obtain ⟨_, _, _, _, _, hl', hr'⟩ := hB'
          exact right _ l' r' (hits_between hR TT _ l' hA hl') (hits_between hR TT _ r' hA hr')
termination_by sizeOf A + sizeOf B

/-! ### Poses -/

theorem touch_iff_touchRel {g1 g2 : Pose} (h1 : Orthonormal g1.R) (t1 t2 : Tri) :
    Touch g1 t1 g2 t2 ↔ touchRel (tmulM g1.R g2.R) (tmulV g1.R (vsub g2.T g1.T)) t1 t2 := by
  have e : ∀ q, mulVpV (tmulM g1.R g2.R) q (tmulV g1.R (vsub g2.T g1.T)) = tmulV g1.R (vsub (g2.at q) g1.T) := by
    intro q
    ext <;> simp only [mulVpV, tmulM, tmulV, vsub, dot, Pose.at] <;> ring
  have e' : ∀ p, g1.at p = vadd (mulV g1.R p) g1.T := by
    intro p
    ext <;> simp only [Pose.at, vadd, mulV]
  constructor
  · rintro ⟨p, q, hp, hq, h⟩
    refine ⟨p, q, hp, hq, ?_⟩
    rw [e, ← h, e']
    have : vsub (vadd (mulV g1.R p) g1.T) g1.T = mulV g1.R p := by
      ext <;> simp only [vsub, vadd] <;> ring
    rw [this, tmulV_mulV h1]
  · rintro ⟨p, q, hp, hq, h⟩
    refine ⟨p, q, hp, hq, ?_⟩
    rw [e', h, e, mulV_tmulV h1]
    ext <;> simp only [vsub, vadd] <;> ring

open Classical in
/-- The whole query. -/
theorem collide_spec {eig1 eig2 : Eigen} {ts1 ts2 : List Tri} (n1 : ts1 ≠ []) (n2 : ts2 ≠ [])
    {g1 g2 : Pose} (h1 : Orthonormal g1.R) (h2 : Orthonormal g2.R) :
    ∃ m1 m2 : Model, buildModel eig1 ts1 = some m1 ∧ buildModel eig2 ts2 = some m2 ∧
      ∃ l : List (Tri × Tri),
        collide false g1.R g1.T m1 g2.R g2.T m2 = some (l.map idPair) ∧
        collide true g1.R g1.T m1 g2.R g2.T m2 = some ((l.map idPair).take 1) ∧
        l.Subperm ((ts1.product ts2).filter (passes (tmulM g1.R g2.R) (tmulV g1.R (vsub g2.T g1.T)))) ∧
        ((ts1.product ts2).filter (fun p => decide (Touch g1 p.1 g2 p.2))).Subperm l := by
  obtain ⟨m1, A, e1, len1, perm1, tr1, fit1, rep1, _⟩ := buildModel_spec eig1 n1
  obtain ⟨m2, B, e2, len2, perm2, tr2, fit2, rep2, _⟩ := buildModel_spec eig2 n2
  have p1 : 0 < ts1.length := List.length_pos_iff.mpr n1
  have p2 : 0 < ts2.length := List.length_pos_iff.mpr n2
  have hA : A.height ≤ ts1.length := by
    refine A.height_le.trans ?_
    rw [← A.tris_length, tr1, perm1.length_eq]
  have hB : B.height ≤ ts2.length := by
    refine B.height_le.trans ?_
    rw [← B.tris_length, tr2, perm2.length_eq]
  have hO : Orthonormal (tmulM g1.R g2.R) := h1.tmul h2
  have q1 := rep1.bv
  have q2 := rep2.bv
  rw [relTree_bv] at q1 q2
  have id1 : ∀ v, tmulV one3 v = v := by
    intro v; ext <;> simp [tmulV, one3, dot]
  have rR : ∀ b, (relTo one3 zero3 zero3 b).R = b.R := by
    intro b; ext <;> simp [relTo, tmulM, id1]
  have rT : ∀ b, (relTo one3 zero3 zero3 b).To = b.To := by
    intro b
    simp only [relTo, id1]
    ext <;> simp [vsub, zero3]
  have run : ∀ fo, collide fo g1.R g1.T m1 g2.R g2.T m2
      = some (upd fo [] ((hits (tmulM g1.R g2.R) (tmulV g1.R (vsub g2.T g1.T)) A B).map idPair)) := by
    intro fo
    unfold collide
    simp only [q1, q2, rR, rT]
    exact collideRec_spec fo _ _ m1 m2 _ A B one3 one3 zero3 zero3 zero3 zero3 0 0 [] (by omega) fit1 fit2
      rep1 rep2 (fun _ => rfl)
  obtain ⟨b1, b2⟩ := hits_between hO (tmulV g1.R (vsub g2.T g1.T)) A B fit1 fit2
  have hp : (A.tris.product B.tris).Perm (ts1.product ts2) :=
    product_perm (by rw [tr1]; exact perm1) (by rw [tr2]; exact perm2)
  refine ⟨m1, m2, e1, e2, hits (tmulM g1.R g2.R) (tmulV g1.R (vsub g2.T g1.T)) A B, ?_, ?_, ?_, ?_⟩
  · rw [run]; simp [upd]
  · rw [run]; simp [upd]
  · exact b1.trans (hp.filter _).subperm
  · refine List.Subperm.trans ?_ b2
    have : (fun p : Tri × Tri => decide (Touch g1 p.1 g2 p.2))
        = (fun p => decide (touchRel (tmulM g1.R g2.R) (tmulV g1.R (vsub g2.T g1.T)) p.1 p.2)) := by
      funext p
      simp only [touch_iff_touchRel h1]
    rw [this]
    exact (hp.symm.filter _).subperm

end Simox.Pqp
