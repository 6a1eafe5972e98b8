/-
From the traversals to whole distance and tolerance queries on built models.
-/
import Verif.Pqp.TriExact2
import Verif.Pqp.Traverse3
import Verif.Pqp.Collide2
import Verif.Pqp.DistSpec

namespace Simox.Pqp

theorem cross_self_dot (a b : V3) : dot (cross a b) (cross a b) = dot a a * dot b b - dot a b ^ 2 := by
  simp only [dot, cross]; ring

theorem normal3_corners (t : Tri) : normal3 t.corners = cross (vsub t.p2 t.p1) (vsub t.p3 t.p1) := by
  ext <;> simp only [normal3, sideVec, Tri.corners, cross, vsub, Fin.isValue, zero_add, Fin.reduceAdd] <;> ring

theorem Tri.sized.regular {t : Tri} (h : t.sized) : Regular t.corners := by
  intro hl
  rw [normal3_corners] at *
  rcases h with h | h
  · exact h
  · norm_num at h hl; linarith

/-- Moving a triangle does not change its area. -/
theorem Regular.move {S : Corners} (h : Regular S) {R : M3} (hR : Orthonormal R) (T : V3) :
    Regular (fun k => mulVpV R (S k) T) := by
  have side : ∀ i, sideVec (fun k => mulVpV R (S k) T) i = mulV R (sideVec S i) := by
    intro i
    ext <;> simp only [sideVec, mulVpV, mulV, vsub] <;> ring
  have sq : dot (normal3 (fun k => mulVpV R (S k) T)) (normal3 (fun k => mulVpV R (S k) T))
      = dot (normal3 S) (normal3 S) := by
    unfold normal3
    rw [side, side, cross_self_dot, cross_self_dot, dot_mulV hR, dot_mulV hR, dot_mulV hR]
  intro hl
  rw [sq] at hl
  have := h hl
  apply dot_self_eq_zero
  rw [sq, this]; simp [dot, zero3]

theorem inS_move {t : Tri} {R : M3} {T y : V3} (h : inS (fun k => mulVpV R (t.corners k) T) y) :
    ∃ q, t.has q ∧ y = mulVpV R q T := by
  obtain ⟨u, v, w, hu, hv, hw, hs, rfl⟩ := h
  refine ⟨_, ⟨u, v, w, hu, hv, hw, hs, rfl⟩, ?_⟩
  have hw' : w = 1 - u - v := by linarith
  subst hw'
  ext <;> simp only [mulVpV, Tri.corners] <;> ring

theorem has_move {t : Tri} {q : V3} (h : t.has q) (R : M3) (T : V3) :
    inS (fun k => mulVpV R (t.corners k) T) (mulVpV R q T) := inTri_mulVpV h R T

/-- The answer for two triangles in terms of their points. -/
theorem triDistance_spec {RR : M3} (hR : Orthonormal RR) (TT : V3) {t1 t2 : Tri} (h1 : t1.sized)
    (h2 : t2.sized) :
    t1.has (triDistance RR TT t1 t2).p ∧
    (∃ q, t2.has q ∧ (triDistance RR TT t1 t2).q = mulVpV RR q TT ∧
      ((triDistance RR TT t1 t2).d = gap RR TT (triDistance RR TT t1 t2).p q ∨
        (triDistance RR TT t1 t2).d = 0)) ∧
    (∃ p q, t1.has p ∧ t2.has q ∧ (triDistance RR TT t1 t2).d = gap RR TT p q) ∧
    ∀ p q, t1.has p → t2.has q → (triDistance RR TT t1 t2).d ≤ gap RR TT p q := by
  have ok := triDist_exact h1.regular (h2.regular.move hR TT)
  have e : triDistance RR TT t1 t2 = triDist t1.corners (fun k => mulVpV RR (t2.corners k) TT) := rfl
  rw [← e] at ok
  obtain ⟨q, hq, eq⟩ := inS_move ok.q
  refine ⟨ok.p, ⟨q, hq, eq, ?_⟩, ?_, ?_⟩
  · have := ok.d
    rw [eq] at this
    exact this
  · obtain ⟨x, y, hx, hy, ed⟩ := ok.att
    obtain ⟨q', hq', rfl⟩ := inS_move hy
    exact ⟨x, q', hx, hq', ed⟩
  · intro p q hp hq
    exact ok.low p _ hp (has_move hq RR TT)

theorem exact_of_sized {RR : M3} (hR : Orthonormal RR) (TT : V3) {l1 l2 : List Tri} (h1 : ∀ t ∈ l1, t.sized)
    (h2 : ∀ t ∈ l2, t.sized) : Exact RR TT l1 l2 := by
  intro t1 m1 t2 m2
  exact (triDistance_spec hR TT (h1 t1 m1) (h2 t2 m2)).2.2.2

/-! ### Poses -/

theorem gap_euclid {g1 g2 : Pose} (h1 : Orthonormal g1.R) (p q : V3) :
    gap (tmulM g1.R g2.R) (tmulV g1.R (vsub g2.T g1.T)) p q = euclid (g1.at p) (g2.at q) := by
  have e : mulVpV (tmulM g1.R g2.R) q (tmulV g1.R (vsub g2.T g1.T)) = tmulV g1.R (vsub (g2.at q) g1.T) := by
    ext <;> simp only [mulVpV, tmulM, tmulV, vsub, dot, Pose.at] <;> ring
  have e' : p = tmulV g1.R (vsub (g1.at p) g1.T) := by
    have : vsub (g1.at p) g1.T = mulV g1.R p := by
      ext <;> simp only [vsub, Pose.at, mulV] <;> ring
    rw [this, tmulV_mulV h1]
  have e'' : vsub (tmulV g1.R (vsub (g2.at q) g1.T)) (tmulV g1.R (vsub (g1.at p) g1.T))
      = tmulV g1.R (vsub (g2.at q) (g1.at p)) := by
    ext <;> simp only [vsub, tmulV, dot] <;> ring
  unfold gap
  rw [e]
  conv_lhs => rw [e']
  rw [e'']
  unfold len3 euclid
  rw [dot_tmulV h1]
  congr 1
  simp only [dot, vsub]; ring

theorem back_global {g1 g2 : Pose} (h1 : Orthonormal g1.R) (q : V3) :
    mulVpV g1.R (mulVpV (tmulM g1.R g2.R) q (tmulV g1.R (vsub g2.T g1.T))) g1.T = g2.at q := by
  have e : mulVpV (tmulM g1.R g2.R) q (tmulV g1.R (vsub g2.T g1.T)) = tmulV g1.R (vsub (g2.at q) g1.T) := by
    ext <;> simp only [mulVpV, tmulM, tmulV, vsub, dot, Pose.at] <;> ring
  have e' : ∀ x, mulVpV g1.R x g1.T = vadd (mulV g1.R x) g1.T := by
    intro x
    ext <;> simp only [mulVpV, vadd, mulV]
  rw [e, e', mulV_tmulV h1]
  ext <;> simp only [vsub, vadd] <;> ring

theorem back_own {RR : M3} (hR : Orthonormal RR) (TT q : V3) :
    tmulV RR (vsub (mulVpV RR q TT) TT) = q := by
  have : vsub (mulVpV RR q TT) TT = mulV RR q := by
    ext <;> simp only [vsub, mulVpV, mulV] <;> ring
  rw [this, tmulV_mulV hR]

/-! ### Whole queries -/

/-- A model that was built from the given triangles. -/
def BuiltFrom (ts : List Tri) (m : Model) : Prop := ∃ eig, buildModel eig ts = some m

theorem root_rel (b : BV) : (relTo one3 zero3 zero3 b).R = b.R ∧ (relTo one3 zero3 zero3 b).Tr = b.Tr := by
  have id1 : ∀ v, tmulV one3 v = v := by
    intro v; ext <;> simp [tmulV, one3, dot]
  constructor
  · ext <;> simp [relTo, tmulM, id1]
  · simp only [relTo, id1]
    ext <;> simp [vsub, zero3]

/-- What a query has to work on. -/
theorem BuiltFrom.tree {ts : List Tri} {m : Model} (n : ts ≠ []) (h : BuiltFrom ts m) :
    ∃ t : BTree, m.tris.Perm ts ∧ t.tris = m.tris ∧ Fits t ∧
      Rep m.bvs m.tris (relTree t one3 zero3 zero3) 0 ∧
      m.bvs[0]? = some (relTo one3 zero3 zero3 t.bv) ∧ t.height ≤ m.bvs.length := by
  obtain ⟨eig, e⟩ := h
  obtain ⟨m', t, e', len, perm, tr, fit, rep, _⟩ := buildModel_spec eig n
  rw [e] at e'
  obtain rfl := Option.some.inj e'
  have q := rep.bv
  rw [relTree_bv] at q
  refine ⟨t, perm, tr, fit, rep, q, ?_⟩
  refine t.height_le.trans ?_
  have hp : 0 < ts.length := List.length_pos_iff.mpr n
  rw [← t.tris_length, tr, perm.length_eq, len]
  omega

theorem distance_spec {ts1 ts2 : List Tri} {m1 m2 : Model} (b1 : BuiltFrom ts1 m1) (b2 : BuiltFrom ts2 m2)
    (s1 : ∀ t ∈ ts1, t.sized) (s2 : ∀ t ∈ ts2, t.sized) {g1 g2 : Pose} (h1 : Orthonormal g1.R)
    (h2 : Orthonormal g2.R) {l1 l2 : Nat} (hl1 : l1 < ts1.length) (hl2 : l2 < ts2.length) {rel abs : ℝ}
    (hrel : 0 ≤ rel) (habs : 0 ≤ abs) :
    ∃ r, distance rel abs g1.R g1.T m1 l1 g2.R g2.T m2 l2 = some r ∧
      r.last1 < ts1.length ∧ r.last2 < ts2.length ∧
      (∃ t1 ∈ ts1, ∃ t2 ∈ ts2, ∃ p q, t1.has p ∧ t2.has q ∧ r.p1 = g1.at p ∧ r.p2 = g2.at q ∧
        r.id1 = t1.id ∧ r.id2 = t2.id ∧ IsDistance g1 t1.has g2 t2.has r.dist ∧
        (r.dist = euclid r.p1 r.p2 ∨ r.dist = 0)) ∧
      ∀ p q, TrisHave ts1 p → TrisHave ts2 q →
        r.dist ≤ euclid (g1.at p) (g2.at q) + abs ∧ r.dist ≤ euclid (g1.at p) (g2.at q) * (1 + rel) := by
  have n1 : ts1 ≠ [] := by rintro rfl; simp at hl1
  have n2 : ts2 ≠ [] := by rintro rfl; simp at hl2
  obtain ⟨A, perm1, tr1, fit1, rep1, q1, hA⟩ := b1.tree n1
  obtain ⟨B, perm2, tr2, fit2, rep2, q2, hB⟩ := b2.tree n2
  have hO : Orthonormal (tmulM g1.R g2.R) := h1.tmul h2
  have len1 := perm1.length_eq
  have len2 := perm2.length_eq
  have sA : ∀ t ∈ A.tris, t.sized := fun t ht => s1 t (perm1.mem_iff.mp (tr1 ▸ ht))
  have sB : ∀ t ∈ B.tris, t.sized := fun t ht => s2 t (perm2.mem_iff.mp (tr2 ▸ ht))
  have ex := exact_of_sized hO (tmulV g1.R (vsub g2.T g1.T)) sA sB
  have e1 : m1.tris[l1]? = some m1.tris[l1] := List.getElem?_eq_getElem (by omega)
  have e2 : m2.tris[l2]? = some m2.tris[l2] := List.getElem?_eq_getElem (by omega)
  obtain ⟨res, er, st, _, wi⟩ := distRec_spec hrel habs hO (tmulV g1.R (vsub g2.T g1.T)) m1 m2
    (m1.bvs.length + m2.bvs.length) A B one3 one3 zero3 zero3 zero3 zero3 0 0
    (recOf (tmulM g1.R g2.R) (tmulV g1.R (vsub g2.T g1.T)) l1 l2 m1.tris[l1] m2.tris[l2])
    (by omega) fit1 fit2 rep1 rep2 ex ⟨l1, l2, _, _, e1, e2, rfl⟩
  obtain ⟨i, j, t1, t2, ei, ej, rfl⟩ := st
  have mi : t1 ∈ ts1 := perm1.mem_iff.mp (List.mem_of_getElem? ei)
  have mj : t2 ∈ ts2 := perm2.mem_iff.mp (List.mem_of_getElem? ej)
  obtain ⟨hp, ⟨q, hq, eq, ed⟩, ⟨p', q', hp', hq', ed'⟩, low⟩ :=
    triDistance_spec hO (tmulV g1.R (vsub g2.T g1.T)) (s1 _ mi) (s2 _ mj)
  have run : distance rel abs g1.R g1.T m1 l1 g2.R g2.T m2 l2 = some
      { recOf (tmulM g1.R g2.R) (tmulV g1.R (vsub g2.T g1.T)) i j t1 t2 with
        p1 := mulVpV g1.R (triDistance (tmulM g1.R g2.R) (tmulV g1.R (vsub g2.T g1.T)) t1 t2).p g1.T
        p2 := mulVpV g1.R (triDistance (tmulM g1.R g2.R) (tmulV g1.R (vsub g2.T g1.T)) t1 t2).q g1.T } := by
    unfold distance
    simp only [e1, e2, q1, q2, (root_rel _).1, (root_rel _).2]
    unfold relR relTr recOf at er
    rw [er]
    rfl
  refine ⟨_, run, ?_, ?_, ⟨t1, mi, t2, mj, _, q, hp, hq, ?_, ?_, rfl, rfl, ⟨⟨p', q', hp', hq', ?_⟩, ?_⟩, ?_⟩,
    ?_⟩
  · rw [← len1]; exact (List.getElem?_eq_some_iff.mp ei).1
  · rw [← len2]; exact (List.getElem?_eq_some_iff.mp ej).1
  · rfl
  · simp only [eq]; exact back_global h1 q
  · rw [← gap_euclid h1]; exact ed'.symm
  · intro x y hx hy
    rw [← gap_euclid h1]; exact low x y hx hy
  · simp only [eq, back_global h1]
    rw [gap_euclid h1] at ed
    exact ed
  · rintro x y ⟨t, ht, hx⟩ ⟨t', ht', hy⟩
    rw [← gap_euclid h1]
    exact wi t (by rw [tr1]; exact perm1.mem_iff.mpr ht) t' (by rw [tr2]; exact perm2.mem_iff.mpr ht') x y hx hy

/-- A tolerance query on triangles for whose pairs the test does not give too large distances. -/
theorem tolerance_core {ts1 ts2 : List Tri} {m1 m2 : Model} (n1 : ts1 ≠ []) (n2 : ts2 ≠ [])
    (b1 : BuiltFrom ts1 m1) (b2 : BuiltFrom ts2 m2) {g1 g2 : Pose} (h1 : Orthonormal g1.R)
    (h2 : Orthonormal g2.R)
    (ex : Exact (tmulM g1.R g2.R) (tmulV g1.R (vsub g2.T g1.T)) ts1 ts2) (tol : ℝ) :
    ∃ r, tolerance tol g1.R g1.T m1 g2.R g2.T m2 = some (r.map (fun r => { r with
      q := tmulV (tmulM g1.R g2.R) (vsub r.q (tmulV g1.R (vsub g2.T g1.T))) })) ∧
      (∀ tr, r = some tr → tr.d ≤ max tol 0 ∧ ∃ t1 ∈ ts1, ∃ t2 ∈ ts2,
        tr = triDistance (tmulM g1.R g2.R) (tmulV g1.R (vsub g2.T g1.T)) t1 t2) ∧
      (r = none → ∀ p q, TrisHave ts1 p → TrisHave ts2 q → max tol 0 < euclid (g1.at p) (g2.at q)) := by
  obtain ⟨A, perm1, tr1, fit1, rep1, q1, hA⟩ := b1.tree n1
  obtain ⟨B, perm2, tr2, fit2, rep2, q2, hB⟩ := b2.tree n2
  have hO : Orthonormal (tmulM g1.R g2.R) := h1.tmul h2
  have iA : ∀ t, t ∈ A.tris ↔ t ∈ ts1 := fun t => by rw [tr1]; exact perm1.mem_iff
  have iB : ∀ t, t ∈ B.tris ↔ t ∈ ts2 := fun t => by rw [tr2]; exact perm2.mem_iff
  have ex' : Exact (tmulM g1.R g2.R) (tmulV g1.R (vsub g2.T g1.T)) A.tris B.tris :=
    fun t ht t' ht' => ex t ((iA t).mp ht) t' ((iB t').mp ht')
  have hm : (if tol < 0 then 0 else tol) = max tol 0 := by
    split_ifs with h
    · exact (max_eq_right h.le).symm
    · exact (max_eq_left (not_lt.mp h)).symm
  have tell := guardedTol hO fit1 fit2 (tolRec_spec (tol := max tol 0) hO (tmulV g1.R (vsub g2.T g1.T)) m1 m2
    (m1.bvs.length + m2.bvs.length) A B one3 one3 zero3 zero3 zero3 zero3 0 0
    (by omega) fit1 fit2 rep1 rep2 ex')
  obtain ⟨r, er, hs, hn⟩ := tell
  refine ⟨r, ?_, ?_, ?_⟩
  · unfold tolerance
    simp only [q1, q2, (root_rel _).1, (root_rel _).2, hm, bvDistance_relTo]
    unfold relR relTr at er
    rw [er]
  · intro tr htr
    obtain ⟨hd, t1, mt1, t2, mt2, e⟩ := hs tr htr
    exact ⟨hd, t1, (iA _).mp mt1, t2, (iB _).mp mt2, e⟩
  · rintro hr x y ⟨t, ht, hx⟩ ⟨t', ht', hy⟩
    rw [← gap_euclid h1]
    exact hn hr t ((iA _).mpr ht) t' ((iB _).mpr ht') x y hx hy

theorem tolerance_spec {ts1 ts2 : List Tri} {m1 m2 : Model} (n1 : ts1 ≠ []) (n2 : ts2 ≠ [])
    (b1 : BuiltFrom ts1 m1) (b2 : BuiltFrom ts2 m2)
    (s1 : ∀ t ∈ ts1, t.sized) (s2 : ∀ t ∈ ts2, t.sized) {g1 g2 : Pose} (h1 : Orthonormal g1.R)
    (h2 : Orthonormal g2.R) (tol : ℝ) :
    ∃ r, tolerance tol g1.R g1.T m1 g2.R g2.T m2 = some r ∧
      (∀ tr, r = some tr → tr.d ≤ max tol 0 ∧ ∃ t1 ∈ ts1, ∃ t2 ∈ ts2, t1.has tr.p ∧ t2.has tr.q ∧
        IsDistance g1 t1.has g2 t2.has tr.d ∧
        (tr.d = euclid (g1.at tr.p) (g2.at tr.q) ∨ tr.d = 0)) ∧
      (r = none → ∀ p q, TrisHave ts1 p → TrisHave ts2 q → max tol 0 < euclid (g1.at p) (g2.at q)) := by
  have hO : Orthonormal (tmulM g1.R g2.R) := h1.tmul h2
  obtain ⟨r, run, hs, hn⟩ := tolerance_core n1 n2 b1 b2 h1 h2
    (exact_of_sized hO (tmulV g1.R (vsub g2.T g1.T)) s1 s2) tol
  refine ⟨_, run, ?_, fun hr => hn (by simpa using hr)⟩
  intro tr htr
  obtain ⟨tr', e', rfl⟩ := Option.map_eq_some_iff.mp htr
  obtain ⟨hd, t1, mt1, t2, mt2, rfl⟩ := hs tr' e'
  obtain ⟨hp, ⟨q, hq, eq, ed⟩, ⟨p', q', hp', hq', ed'⟩, low⟩ :=
    triDistance_spec hO (tmulV g1.R (vsub g2.T g1.T)) (s1 _ mt1) (s2 _ mt2)
  have eq' : tmulV (tmulM g1.R g2.R) (vsub (triDistance (tmulM g1.R g2.R)
      (tmulV g1.R (vsub g2.T g1.T)) t1 t2).q (tmulV g1.R (vsub g2.T g1.T))) = q := by
    rw [eq]; exact back_own hO _ _
  refine ⟨hd, t1, mt1, t2, mt2, hp, ?_, ⟨⟨p', q', hp', hq', ?_⟩, ?_⟩, ?_⟩
  · simp only [eq']; exact hq
  · rw [← gap_euclid h1]; exact ed'.symm
  · intro x y hx hy
    rw [← gap_euclid h1]; exact low x y hx hy
  · simp only [eq']
    rw [gap_euclid h1] at ed
    exact ed

end Simox.Pqp
