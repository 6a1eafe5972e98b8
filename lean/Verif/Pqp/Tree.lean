/-
The array of bounding volumes as a tree: building it and making it relative.
-/
import Verif.Pqp.Fit2
import Mathlib.Data.List.Nodup
import Mathlib.Data.List.Perm.Basic

namespace Simox.Pqp

/-- A tree of bounding volumes.  An inner node knows the slot of its first child, a leaf the number of
its triangle. -/
inductive BTree where
  | leaf (b : BV) (i : Nat) (t : Tri)
  | node (b : BV) (k : Nat) (l r : BTree)

def BTree.bv : BTree → BV
  | .leaf b _ _ => b
  | .node b _ _ _ => b

def BTree.tris : BTree → List Tri
  | .leaf _ _ t => [t]
  | .node _ _ l r => l.tris ++ r.tris

/-- Number of leaves. -/
def BTree.weight : BTree → Nat
  | .leaf _ _ _ => 1
  | .node _ _ l r => l.weight + r.weight

/-- Height of the tree, at least 1. -/
def BTree.height : BTree → Nat
  | .leaf _ _ _ => 1
  | .node _ _ l r => max l.height r.height + 1

/-- Slots used by the tree at slot `n`. -/
def BTree.slots : BTree → Nat → List Nat
  | .leaf _ _ _, n => [n]
  | .node _ k l r, n => n :: (l.slots k ++ r.slots (k + 1))

/-- Numbers of the triangles. -/
def BTree.idxs : BTree → List Nat
  | .leaf _ i _ => [i]
  | .node _ _ l r => l.idxs ++ r.idxs

/-- The arrays hold the tree at slot `n`. -/
def Rep (bvs : List BV) (tris : List Tri) : BTree → Nat → Prop
  | .leaf b i t, n => bvs[n]? = some b ∧ b.firstChild = -((i : Int) + 1) ∧ tris[i]? = some t
  | .node b k l r, n =>
    bvs[n]? = some b ∧ b.firstChild = (k : Int) ∧ Rep bvs tris l k ∧ Rep bvs tris r (k + 1)

/-- Every bounding volume is well oriented and contains the triangles below. -/
def Fits : BTree → Prop
  | .leaf b _ t => Orthonormal b.R ∧ 0 ≤ b.r ∧ 0 ≤ b.l0 ∧ 0 ≤ b.l1 ∧ ∀ p, t.has p → b.box p ∧ b.rss p
  | .node b _ l r => Orthonormal b.R ∧ 0 ≤ b.r ∧ 0 ≤ b.l0 ∧ 0 ≤ b.l1 ∧
    (∀ t ∈ l.tris ++ r.tris, ∀ p, t.has p → b.box p ∧ b.rss p) ∧ Fits l ∧ Fits r

theorem Rep.bv {bvs : List BV} {tris : List Tri} {t : BTree} {n : Nat} (h : Rep bvs tris t n) :
    bvs[n]? = some t.bv := by
  cases t with
  | leaf b i t => exact h.1
  | node b k l r => exact h.1

theorem slots_self (t : BTree) (n : Nat) : n ∈ t.slots n := by
  cases t <;> simp [BTree.slots]

theorem Rep.congr {bvs bvs' : List BV} {tris tris' : List Tri} {t : BTree} {n : Nat}
    (h : Rep bvs tris t n) (h1 : ∀ j ∈ t.slots n, bvs'[j]? = bvs[j]?)
    (h2 : ∀ i ∈ t.idxs, tris'[i]? = tris[i]?) : Rep bvs' tris' t n := by
  induction t generalizing n with
  | leaf b i t =>
    refine ⟨?_, h.2.1, ?_⟩
    · rw [h1 n (slots_self _ _)]; exact h.1
    · rw [h2 i (by simp [BTree.idxs])]; exact h.2.2
  | node b k l r ihl ihr =>
    obtain ⟨a1, a2, a3, a4⟩ := h
    refine ⟨?_, a2, ?_, ?_⟩
    · rw [h1 n (slots_self _ _)]; exact a1
    · exact ihl a3 (fun j hj => h1 j (by simp [BTree.slots, hj])) (fun i hi => h2 i (by simp [BTree.idxs, hi]))
    · exact ihr a4 (fun j hj => h1 j (by simp [BTree.slots, hj])) (fun i hi => h2 i (by simp [BTree.idxs, hi]))

theorem BTree.weight_pos (t : BTree) : 0 < t.weight := by
  cases t with
  | leaf => simp [weight]
  | node b k l r =>
    have := l.weight_pos
    simp only [weight]; omega

theorem BTree.height_le (t : BTree) : t.height ≤ t.weight := by
  induction t with
  | leaf => simp [height, weight]
  | node b k l r ihl ihr =>
    have := l.weight_pos
    have := r.weight_pos
    simp only [height, weight]; omega

theorem BTree.tris_length (t : BTree) : t.tris.length = t.weight := by
  induction t with
  | leaf => rfl
  | node b k l r ihl ihr => simp [tris, weight, ihl, ihr]

/-! ### Building -/

/-- What `buildRec` does in the range of triangles `[first, first + n)` for slot `bn`. -/
structure Built (m m' : Model) (bn first n : Nat) (t : BTree) : Prop where
  len : m'.bvs.length = m.bvs.length
  num : m'.numBvs = m.numBvs + 2 * (n - 1)
  other : ∀ j, j < m.numBvs → j ≠ bn → m'.bvs[j]? = m.bvs[j]?
  tris : m'.tris = m.tris.take first ++ t.tris ++ m.tris.drop (first + n)
  perm : t.tris.Perm ((m.tris.drop first).take n)
  rep : Rep m'.bvs m'.tris t bn
  fits : Fits t
  slots : ∀ j ∈ t.slots bn, j = bn ∨ (m.numBvs ≤ j ∧ j < m.numBvs + 2 * (n - 1))
  nodup : (t.slots bn).Nodup
  idxs : t.idxs = List.range' first n

theorem slice_length {l : List Tri} {first n : Nat} (h : first + n ≤ l.length) :
    ((l.drop first).take n).length = n := by
  simp; omega

theorem getElem?_before (l s r : List Tri) {first i : Nat} (hf : first ≤ l.length) (h : i < first) :
    (l.take first ++ s ++ r)[i]? = l[i]? := by
  rw [List.append_assoc, List.getElem?_append_left (by simp; omega), List.getElem?_take_of_lt h]

theorem fits_leaf {eig : Eigen} {t : Tri} {b : BV} (h : fit (frame eig [t]) [t] = some b) (fc : Int) (i : Nat) :
    Fits (.leaf { b with firstChild := fc } i t) := by
  obtain ⟨b', e, hR, hr, hl0, hl1, hc⟩ := fit_some (R := frame eig [t]) (ts := [t]) (by simp)
  rw [h] at e
  obtain rfl := Option.some.inj e
  refine ⟨?_, hr, hl0, hl1, ?_⟩
  · simp only; rw [hR]; exact frame_orthonormal _ _
  · intro p hp
    have := hc (frame_orthonormal _ _) t (by simp) p hp
    exact ⟨this.1, this.2⟩

theorem buildRec_spec (eig : Eigen) (f : Nat) : ∀ (m : Model) (bn first n : Nat), n ≤ f → 0 < n →
    bn < m.numBvs → m.numBvs + 2 * (n - 1) ≤ m.bvs.length → first + n ≤ m.tris.length →
    ∃ m' t, buildRec eig f m bn first n = some m' ∧ Built m m' bn first n t := by
  induction f with
  | zero => intro m bn first n h1 h2; omega
  | succ f ih =>
    intro m bn first n hnf hn hbn hcap hlen
    have hsl := slice_length hlen
    generalize hts : (m.tris.drop first).take n = ts at hsl
    have htne : ts ≠ [] := by intro e; rw [e] at hsl; simp at hsl; omega
    obtain ⟨b, hb, hR, hr, hl0, hl1, hc⟩ := fit_some (R := frame eig ts) htne
    have hbl : bn < m.bvs.length := by omega
    by_cases h1 : n = 1
    · subst h1
      obtain ⟨t, rfl⟩ : ∃ t, ts = [t] := List.length_eq_one_iff.mp hsl
      have htget : m.tris[first]? = some t := by
        have : ((m.tris.drop first).take 1)[0]? = some t := by rw [hts]; rfl
        simpa using this
      refine ⟨{ m with bvs := m.bvs.set bn { b with firstChild := -((first : Int) + 1) } },
        .leaf { b with firstChild := -((first : Int) + 1) } first t, ?_, ?_⟩
      · unfold buildRec
        simp only [hts, hb]
        rw [if_pos hbl, if_pos trivial]
      · refine ⟨by simp, by simp, ?_, ?_, ?_, ?_, fits_leaf hb _ _, ?_, ?_, ?_⟩
        · intro j _ hne
          exact List.getElem?_set_ne (Ne.symm hne)
        · simp only [BTree.tris]
          have e : m.tris = m.tris.take first ++ m.tris.drop first := (List.take_append_drop _ _).symm
          have e2 : m.tris.drop first = [t] ++ m.tris.drop (first + 1) := by
            rw [← hts, ← List.drop_drop, List.take_append_drop]
          conv_lhs => rw [e, e2]
          simp
        · simp [BTree.tris, hts]
        · refine ⟨?_, rfl, htget⟩
          simp [hbl]
        · intro j hj; simp [BTree.slots] at hj; exact Or.inl hj
        · simp [BTree.slots]
        · simp [BTree.idxs]
    · have hn1 : 1 < n := by omega
      have hsz := splitTris_size (ts := ts) (by omega) (frame eig ts).c0
        (dot (frame eig ts).c0 (centroid ts))
      have hpm := splitTris_perm ts (frame eig ts).c0 (dot (frame eig ts).c0 (centroid ts))
      generalize hs : splitTris ts (frame eig ts).c0 (dot (frame eig ts).c0 (centroid ts)) = s at hsz hpm
      obtain ⟨m1, hm1⟩ : ∃ m1 : Model, m1 =
          { bvs := m.bvs.set bn { b with firstChild := m.numBvs }
            numBvs := m.numBvs + 2
            tris := m.tris.take first ++ s.1 ++ m.tris.drop (first + n) } := ⟨_, rfl⟩
      have hs1 : s.1.length = n := hpm.length_eq.trans hsl
      have m1b : m1.bvs.length = m.bvs.length := by rw [hm1]; simp
      have m1n : m1.numBvs = m.numBvs + 2 := by rw [hm1]
      have m1t : m1.tris = m.tris.take first ++ s.1 ++ m.tris.drop (first + n) := by rw [hm1]
      have m1l : m1.tris.length = m.tris.length := by
        rw [m1t]; simp [hs1]; omega
      obtain ⟨m2, l, e2, B1⟩ := ih m1 m.numBvs first s.2 (by omega) hsz.1 (by omega) (by omega) (by omega)
      have hbn2 : m2.bvs[bn]? = some { b with firstChild := (m.numBvs : Int) } := by
        rw [B1.other bn (by omega) (by omega), hm1]
        simp [hbl]
      have m2l : m2.tris.length = m.tris.length := by
        rw [B1.tris]
        have := B1.perm.length_eq
        simp at this ⊢
        omega
      have htk : ((m1.tris.drop first).take s.2) = s.1.take s.2 := by
        rw [m1t, List.append_assoc, List.drop_append]
        have : (m.tris.take first).length = first := by simp; omega
        rw [List.drop_of_length_le (by omega), this]
        simp only [Nat.sub_self, List.drop_zero, List.nil_append]
        rw [List.take_append_of_le_length (by omega)]
      have hdr : m1.tris.drop (first + s.2) = s.1.drop s.2 ++ m.tris.drop (first + n) := by
        rw [m1t, List.append_assoc, List.drop_append]
        have h1 : (m.tris.take first).length = first := by simp; omega
        rw [List.drop_of_length_le (by omega), h1]
        simp only [Nat.add_sub_cancel_left, List.nil_append]
        rw [List.drop_append_of_le_length (by omega)]
      have htkf : m1.tris.take first = m.tris.take first := by
        rw [m1t, List.append_assoc, List.take_append_of_le_length (by simp; omega)]
        simp
      have m2t : m2.tris = m.tris.take first ++ l.tris ++ (s.1.drop s.2 ++ m.tris.drop (first + n)) := by
        rw [B1.tris, htkf, hdr]
      have lw : l.tris.length = s.2 := by
        rw [B1.perm.length_eq, htk]; simp; omega
      obtain ⟨m3, r, e3, B2⟩ := ih m2 (m.numBvs + 1) (first + s.2) (n - s.2) (by omega) (by omega)
        (by rw [B1.num, m1n]; omega) (by rw [B1.num, m1n, B1.len, m1b]; omega) (by omega)
      have hfl : (m.tris.take first ++ l.tris).length = first + s.2 := by
        simp [lw]; omega
      have hdr2 : (m2.tris.drop (first + s.2)).take (n - s.2) = s.1.drop s.2 := by
        rw [m2t, List.drop_append, List.drop_of_length_le (by omega), hfl]
        simp only [Nat.sub_self, List.drop_zero, List.nil_append]
        rw [List.take_append_of_le_length (by simp; omega), List.take_of_length_le (by simp; omega)]
      have htk2 : m2.tris.take (first + s.2) = m.tris.take first ++ l.tris := by
        rw [m2t, List.take_append_of_le_length (by omega), List.take_of_length_le (by omega)]
      have hdr3 : m2.tris.drop (first + s.2 + (n - s.2)) = m.tris.drop (first + n) := by
        rw [m2t, ← List.append_assoc]
        have h1 : (m.tris.take first ++ l.tris ++ s.1.drop s.2).length = first + n := by
          simp [lw]; omega
        rw [show first + s.2 + (n - s.2) = first + n by omega, List.drop_append,
          List.drop_of_length_le (by omega), h1]
        simp
      have m3t : m3.tris = m.tris.take first ++ l.tris ++ r.tris ++ m.tris.drop (first + n) := by
        rw [B2.tris, htk2, hdr3]
      have hperm : (l.tris ++ r.tris).Perm ts := by
        refine List.Perm.trans ?_ hpm
        have p1 := B1.perm
        have p2 := B2.perm
        rw [htk] at p1
        rw [hdr2] at p2
        refine (p1.append p2).trans ?_
        rw [List.take_append_drop]
      have lslots : ∀ j ∈ l.slots m.numBvs, j = m.numBvs ∨ (m.numBvs + 2 ≤ j ∧ j < m2.numBvs) := by
        intro j hj
        have := B1.slots j hj
        rw [m1n] at this
        rw [B1.num, m1n]
        exact this
      have rslots : ∀ j ∈ r.slots (m.numBvs + 1), j = m.numBvs + 1 ∨
          (m2.numBvs ≤ j ∧ j < m2.numBvs + 2 * (n - s.2 - 1)) := B2.slots
      have m2n : m2.numBvs = m.numBvs + 2 + 2 * (s.2 - 1) := by rw [B1.num, m1n]
      refine ⟨m3, .node { b with firstChild := (m.numBvs : Int) } m.numBvs l r, ?_, ?_⟩
      · unfold buildRec
        simp only [hts, hb]
        rw [if_pos hbl, if_neg h1, if_pos hn1, hs]
        rw [← hm1, e2]
        simp only [hbn2]
        exact e3
      · refine ⟨?_, ?_, ?_, ?_, ?_, ?_, ?_, ?_, ?_, ?_⟩
        · rw [B2.len, B1.len, m1b]
        · rw [B2.num, m2n]; omega
        · intro j hj hne
          rw [B2.other j (by omega) (by omega), B1.other j (by omega) (by omega), hm1]
          exact List.getElem?_set_ne (Ne.symm hne)
        · simp only [BTree.tris]; rw [m3t]; simp
        · simp only [BTree.tris]; rw [hts]; exact hperm
        · refine ⟨?_, rfl, ?_, B2.rep⟩
          · rw [B2.other bn (by omega) (by omega)]; exact hbn2
          · refine B1.rep.congr ?_ ?_
            · intro j hj
              have := lslots j hj
              exact B2.other j (by omega) (by omega)
            · intro i hi
              rw [B1.idxs] at hi
              have hi' := List.mem_range'_1.mp hi
              rw [B2.tris]
              exact getElem?_before _ _ _ (by omega) (by omega)
        · refine ⟨?_, hr, hl0, hl1, ?_, B1.fits, B2.fits⟩
          · simp only; rw [hR]; exact frame_orthonormal _ _
          · intro t ht p hp
            have := hc (frame_orthonormal _ _) t (hperm.mem_iff.mp ht) p hp
            exact ⟨this.1, this.2⟩
        · intro j hj
          simp only [BTree.slots, List.mem_cons, List.mem_append] at hj
          rcases hj with rfl | hj | hj
          · exact Or.inl rfl
          · have := lslots j hj
            right; omega
          · have := rslots j hj
            right; omega
        · simp only [BTree.slots, List.nodup_cons, List.mem_append, not_or]
          refine ⟨⟨?_, ?_⟩, ?_⟩
          · intro hj
            have := lslots _ hj; omega
          · intro hj
            have := rslots _ hj; omega
          · refine List.Nodup.append B1.nodup B2.nodup ?_
            intro j h1 h2
            have := lslots j h1
            have := rslots j h2
            omega
        · simp only [BTree.idxs]
          rw [B1.idxs, B2.idxs]
          have := List.range'_append (s := first) (m := s.2) (n := n - s.2) (step := 1)
          rw [Nat.one_mul] at this
          rw [this]
          congr 1; omega

end Simox.Pqp
