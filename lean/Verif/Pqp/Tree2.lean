/-
Making the tree relative to its parents; the collision query as a function of two trees.
-/
import Verif.Pqp.Tree

namespace Simox.Pqp

/-- The tree with all bounding volumes relative to their parents. -/
noncomputable def relTree : BTree → M3 → V3 → V3 → BTree
  | .leaf b i t, pR, pTr, pTo => .leaf (relTo pR pTr pTo b) i t
  | .node b k l r, pR, pTr, pTo =>
    .node (relTo pR pTr pTo b) k (relTree l b.R b.Tr b.To) (relTree r b.R b.Tr b.To)

theorem relTree_slots (t : BTree) (pR : M3) (pTr pTo : V3) (n : Nat) :
    (relTree t pR pTr pTo).slots n = t.slots n := by
  induction t generalizing pR pTr pTo n with
  | leaf => rfl
  | node b k l r ihl ihr => simp [relTree, BTree.slots, ihl, ihr]

theorem relTree_idxs (t : BTree) (pR : M3) (pTr pTo : V3) :
    (relTree t pR pTr pTo).idxs = t.idxs := by
  induction t generalizing pR pTr pTo with
  | leaf => rfl
  | node b k l r ihl ihr => simp [relTree, BTree.idxs, ihl, ihr]

theorem relTree_bv (t : BTree) (pR : M3) (pTr pTo : V3) :
    (relTree t pR pTr pTo).bv = relTo pR pTr pTo t.bv := by
  cases t <;> rfl

theorem Rep.slot_lt {bvs : List BV} {tris : List Tri} {t : BTree} {n : Nat} (h : Rep bvs tris t n) :
    n < bvs.length := by
  have := h.bv
  exact (List.getElem?_eq_some_iff.mp this).1

theorem makeRel_spec (tris : List Tri) (t : BTree) : ∀ (f : Nat) (bvs : List BV) (n : Nat) (pR : M3)
    (pTr pTo : V3), t.height ≤ f → Rep bvs tris t n → (t.slots n).Nodup →
    ∃ bvs', makeRel f bvs n pR pTr pTo = some bvs' ∧ bvs'.length = bvs.length ∧
      (∀ j, j ∉ t.slots n → bvs'[j]? = bvs[j]?) ∧ Rep bvs' tris (relTree t pR pTr pTo) n := by
  induction t with
  | leaf b i t =>
    intro f bvs n pR pTr pTo hf hrep _
    cases f with
    | zero => simp [BTree.height] at hf
    | succ f =>
      obtain ⟨h1, h2, h3⟩ := hrep
      have hlt : n < bvs.length := (List.getElem?_eq_some_iff.mp h1).1
      have hleaf : b.leaf = true := by simp only [BV.leaf, h2, decide_eq_true_eq]; omega
      refine ⟨bvs.set n (relTo pR pTr pTo b), ?_, by simp, ?_, ?_⟩
      · unfold makeRel
        simp only [h1, hleaf, if_true]
      · intro j hj
        simp only [BTree.slots, List.mem_singleton] at hj
        exact List.getElem?_set_ne (Ne.symm hj)
      · exact ⟨by simp [hlt], h2, h3⟩
  | node b k l r ihl ihr =>
    intro f bvs n pR pTr pTo hf hrep hnd
    cases f with
    | zero => simp [BTree.height] at hf
    | succ f =>
      obtain ⟨h1, h2, h3, h4⟩ := hrep
      have hlt : n < bvs.length := (List.getElem?_eq_some_iff.mp h1).1
      have hleaf : b.leaf = false := by simp only [BV.leaf, h2, decide_eq_false_iff_not]; omega
      simp only [BTree.height] at hf
      simp only [BTree.slots, List.nodup_cons, List.mem_append, not_or] at hnd
      obtain ⟨⟨n1, n2⟩, n3⟩ := hnd
      have hdis := List.disjoint_of_nodup_append n3
      obtain ⟨bvs1, e1, len1, oth1, rep1⟩ := ihl f bvs k b.R b.Tr b.To (by omega) h3 n3.of_append_left
      have b1 : bvs1[n]? = some b := by rw [oth1 n n1]; exact h1
      have rep4 : Rep bvs1 tris r (k + 1) := by
        refine h4.congr ?_ (fun _ _ => rfl)
        intro j hj
        exact oth1 j (fun hj' => hdis hj' hj)
      obtain ⟨bvs2, e2, len2, oth2, rep2⟩ := ihr f bvs1 (k + 1) b.R b.Tr b.To (by omega) rep4
        n3.of_append_right
      have b2 : bvs2[n]? = some b := by rw [oth2 n n2]; exact b1
      refine ⟨bvs2.set n (relTo pR pTr pTo b), ?_, by simp [len1, len2], ?_, ?_⟩
      · unfold makeRel
        simp only [h1, hleaf]
        have : b.firstChild.toNat = k := by rw [h2]; simp
        rw [this, e1]
        have t2 : (b.firstChild + 1).toNat = k + 1 := by rw [h2]; omega
        simp [b1, t2, e2, b2]
      · intro j hj
        simp only [BTree.slots, List.mem_cons, List.mem_append, not_or] at hj
        rw [List.getElem?_set_ne (Ne.symm hj.1), oth2 j hj.2.2, oth1 j hj.2.1]
      · refine ⟨List.getElem?_set_self (by omega), h2, ?_, ?_⟩
        · refine rep1.congr ?_ (fun _ _ => rfl)
          intro j hj
          rw [relTree_slots] at hj
          have hjn : j ≠ n := fun e => n1 (e ▸ hj)
          rw [List.getElem?_set_ne (Ne.symm hjn), oth2 j (fun hj' => hdis hj hj')]
        · refine rep2.congr ?_ (fun _ _ => rfl)
          intro j hj
          rw [relTree_slots] at hj
          have hjn : j ≠ n := fun e => n2 (e ▸ hj)
          rw [List.getElem?_set_ne (Ne.symm hjn)]

/-- Building never fails: a tree over a rearrangement of the triangles, stored relative to parents. -/
theorem buildModel_spec (eig : Eigen) {ts : List Tri} (h : ts ≠ []) :
    ∃ m t, buildModel eig ts = some m ∧ m.bvs.length = 2 * ts.length - 1 ∧ m.tris.Perm ts ∧
      t.tris = m.tris ∧ Fits t ∧ Rep m.bvs m.tris (relTree t one3 zero3 zero3) 0 ∧
      m.numBvs = 2 * ts.length - 1 := by
  have hpos : 0 < ts.length := List.length_pos_iff.mpr h
  obtain ⟨m, t, e, B⟩ := buildRec_spec eig ts.length
    ⟨List.replicate (2 * ts.length - 1) rawBV, 1, ts⟩ 0 0 ts.length (le_refl _) hpos (by simp)
    (by simp; omega) (by simp)
  have htris : t.tris = m.tris := by rw [B.tris]; simp
  have hperm : m.tris.Perm ts := by
    rw [← htris]
    simpa using B.perm
  have hw : t.height ≤ ts.length := by
    refine t.height_le.trans ?_
    rw [← t.tris_length, htris, hperm.length_eq]
  obtain ⟨bvs', e', len', _, rep'⟩ := makeRel_spec m.tris t ts.length m.bvs 0 one3 zero3 zero3 hw B.rep
    B.nodup
  refine ⟨{ m with bvs := bvs' }, t, ?_, ?_, hperm, htris, B.fits, rep', ?_⟩
  · unfold buildModel
    rw [e]
    simp only [e']
  · simp only [len', B.len]; simp
  · simp only [B.num]; omega

/-! ### The query as a function of trees -/

/-- Orientation of the second box relative to the first, from absolute frames. -/
noncomputable def relR (RR : M3) (b1 b2 : BV) : M3 := tmulM b1.R (mulM RR b2.R)

noncomputable def relT (RR : M3) (TT : V3) (b1 b2 : BV) : V3 :=
  tmulV b1.R (vsub (mulVpV RR b2.To TT) b1.To)

theorem tmulM_rel {P a : M3} (hP : Orthonormal P) (X : M3) : tmulM (tmulM P a) (tmulM P X) = tmulM a X := by
  ext <;> simp only [tmulM, tmulV] <;> exact dot_tmulV hP _ _

theorem mulM_assoc (a b c : M3) : mulM (mulM a b) c = mulM a (mulM b c) := by
  ext <;> simp only [mulM, mulV] <;> ring

theorem mulM_tmulM {P : M3} (hP : Orthonormal P) (X : M3) : mulM P (tmulM P X) = X := by
  have := fun v => mulV_tmulV hP v
  ext <;> simp only [mulM, tmulM, this]

theorem tmulM_mulM (a b c : M3) : mulM (tmulM a b) c = tmulM a (mulM b c) := by
  ext <;> simp only [mulM, tmulM, mulV, tmulV, dot] <;> ring

theorem relR_child1 {RR : M3} {p c b2 : BV} (hp : Orthonormal p.R) (pTr pTo : V3) :
    tmulM (relTo p.R pTr pTo c).R (relR RR p b2) = relR RR c b2 := by
  unfold relR relTo
  exact tmulM_rel hp _

theorem tmulV_tmulM {P a : M3} (hP : Orthonormal P) (v : V3) :
    tmulV (tmulM P a) (tmulV P v) = tmulV a v := by
  ext <;> simp only [tmulM, tmulV] <;> exact dot_tmulV hP _ _

theorem relT_child1 {RR : M3} {TT : V3} {p c b2 : BV} (hp : Orthonormal p.R) (pTr : V3) :
    tmulV (relTo p.R pTr p.To c).R (vsub (relT RR TT p b2) (relTo p.R pTr p.To c).To)
      = relT RR TT c b2 := by
  unfold relT relTo
  simp only
  have : vsub (tmulV p.R (vsub (mulVpV RR b2.To TT) p.To)) (tmulV p.R (vsub c.To p.To))
      = tmulV p.R (vsub (mulVpV RR b2.To TT) c.To) := by
    ext <;> simp only [vsub, tmulV, dot] <;> ring
  rw [this, tmulV_tmulM hp]

theorem relR_child2 {RR : M3} {b1 p c : BV} (hp : Orthonormal p.R) (pTr pTo : V3) :
    mulM (relR RR b1 p) (relTo p.R pTr pTo c).R = relR RR b1 c := by
  unfold relR relTo
  simp only
  rw [tmulM_mulM, mulM_assoc, mulM_tmulM hp]

theorem mulVpV_rel (a RR P : M3) (w T : V3) :
    vadd (tmulV a (mulV RR (mulV P w))) T = mulVpV (tmulM a (mulM RR P)) w T := by
  ext <;> simp only [vadd, mulVpV, tmulM, mulM, tmulV, mulV, dot] <;> ring

theorem relT_child2 {RR : M3} {TT : V3} {b1 p c : BV} (hp : Orthonormal p.R) (pTr : V3) :
    mulVpV (relR RR b1 p) (relTo p.R pTr p.To c).To (relT RR TT b1 p) = relT RR TT b1 c := by
  unfold relR relT relTo
  simp only
  rw [← mulVpV_rel, mulV_tmulV hp]
  ext <;> simp only [vsub, vadd, mulVpV, tmulV, mulV, dot] <;> ring

end Simox.Pqp
