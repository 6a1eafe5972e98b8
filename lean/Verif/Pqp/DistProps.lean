/-
C47 Distance of meshes, C48 Tolerance queries.
-/
import Verif.Pqp.Dist
import Verif.Pqp.DistWit
import Verif.Pqp.Props

namespace Simox.Pqp

/-! ### C47 -/

/-- **Any precision.**  On built models, whatever triangles (`l1`, `l2`) the query starts from, the answer
is at least the distance, at most `abs` and at most the factor `1 + rel` larger; with `rel = abs = 0` it is
the distance.  The points are on the surfaces, in global coordinates, belong to the triangles with the
reported numbers and are at the reported distance, unless that is 0. -/
theorem C47_precision {ts1 ts2 : List Tri} {m1 m2 : Model} (b1 : BuiltFrom ts1 m1) (b2 : BuiltFrom ts2 m2)
    (s1 : ∀ t ∈ ts1, t.sized) (s2 : ∀ t ∈ ts2, t.sized) {g1 g2 : Pose} (h1 : Orthonormal g1.R)
    (h2 : Orthonormal g2.R) {l1 l2 : Nat} (hl1 : l1 < ts1.length) (hl2 : l2 < ts2.length) {rel abs : ℝ}
    (hrel : 0 ≤ rel) (habs : 0 ≤ abs) :
    ∃ r d, distance rel abs g1.R g1.T m1 l1 g2.R g2.T m2 l2 = some r ∧
      IsDistance g1 (TrisHave ts1) g2 (TrisHave ts2) d ∧
      d ≤ r.dist ∧ r.dist ≤ d + abs ∧ r.dist ≤ d * (1 + rel) ∧
      ∃ t1 ∈ ts1, ∃ t2 ∈ ts2, r.id1 = t1.id ∧ r.id2 = t2.id ∧
        (∃ p, t1.has p ∧ r.p1 = g1.at p) ∧ (∃ q, t2.has q ∧ r.p2 = g2.at q) ∧
        (0 < r.dist → euclid r.p1 r.p2 = r.dist) := by
  obtain ⟨r0, _, _, _, ⟨t1, m1', t2, m2', _, _, _, _, _, _, _, _, hd, _⟩, hw⟩ :=
    distance_spec b1 b2 s1 s2 h1 h2 hl1 hl2 (le_refl 0) (le_refl 0)
  have hD : IsDistance g1 (TrisHave ts1) g2 (TrisHave ts2) r0.dist := by
    obtain ⟨⟨p, q, hp, hq, e⟩, _⟩ := hd
    refine ⟨⟨p, q, ⟨t1, m1', hp⟩, ⟨t2, m2', hq⟩, e⟩, ?_⟩
    intro p q hp hq
    have := (hw p q hp hq).1
    linarith
  obtain ⟨r, e, _, _, ⟨t1, m1', t2, m2', p, q, hp, hq, e1, e2, i1, i2, hd', ho⟩, hw'⟩ :=
    distance_spec b1 b2 s1 s2 h1 h2 hl1 hl2 hrel habs
  obtain ⟨⟨p0, q0, hp0, hq0, e0⟩, hlow⟩ := hD
  refine ⟨r, r0.dist, e, ⟨⟨p0, q0, hp0, hq0, e0⟩, hlow⟩, ?_, ?_, ?_, t1, m1', t2, m2', i1, i2,
    ⟨p, hp, e1⟩, ⟨q, hq, e2⟩, ?_⟩
  · obtain ⟨⟨x, y, hx, hy, ex⟩, _⟩ := hd'
    rw [← ex]
    exact hlow x y ⟨t1, m1', hx⟩ ⟨t2, m2', hy⟩
  · rw [← e0]; exact (hw' p0 q0 hp0 hq0).1
  · rw [← e0]; exact (hw' p0 q0 hp0 hq0).2
  · intro hpos
    rcases ho with h | h
    · exact h.symm
    · linarith

/-- The answer to a distance query about two meshes is right. -/
def RightAnswer (mesh1 mesh2 : Mesh) (g1 g2 : Pose) (r : DRes) : Prop :=
  IsDistance g1 mesh1.has g2 mesh2.has r.dist ∧
  (∃ p, mesh1.has p ∧ r.p1 = g1.at p) ∧ (∃ q, mesh2.has q ∧ r.p2 = g2.at q) ∧
  (0 < r.dist → euclid r.p1 r.p2 = r.dist)

/-- The collision model made from a mesh. -/
def MadeFrom (mesh : Mesh) (m : Model) : Prop :=
  ∃ eig id pm, createPQPModel eig mesh id = some pm ∧ pm.built = some m

theorem MadeFrom.built {mesh : Mesh} (hv : mesh.valid) (hf : mesh.faces ≠ []) {m : Model} (h : MadeFrom mesh m) :
    ∃ id, BuiltFrom (mesh.tris id) m := by
  obtain ⟨eig, id, pm, e, b⟩ := h
  obtain ⟨pm', e', _, hp⟩ := createPQPModel_spec eig hv id
  rw [e] at e'
  obtain rfl := Option.some.inj e'
  exact ⟨id, eig, by rw [← (hp hf).2, b]⟩

theorem Mesh.sized.tris {mesh : Mesh} (h : mesh.sized) (id : Int) : ∀ t ∈ mesh.tris id, t.sized := by
  intro t ht
  obtain ⟨⟨i, j, k⟩, hf, e⟩ := List.mem_filterMap.mp ht
  obtain ⟨h1, h2, h3⟩ := faceTri_some e
  exact h i j k _ _ _ hf h1 h2 h3

/-- Meshes for which distances are answered. -/
def Mesh.good (m : Mesh) : Prop := m.valid ∧ m.sized ∧ m.faces ≠ []

/-- The collision models of some meshes, as they are before the first query or after any others: any
existing triangle may be the closest one of the last query. -/
def StoreOf (meshes : List Mesh) (w : Store) : Prop :=
  w.length = meshes.length ∧ ∀ (k : Nat) mesh m l, meshes[k]? = some mesh → w[k]? = some (m, l) →
    MadeFrom mesh m ∧ l < mesh.faces.length

theorem Mesh.tris_length {mesh : Mesh} (h : mesh.valid) (id : Int) : (mesh.tris id).length = mesh.faces.length := by
  have : ∀ l : List (Nat × Nat × Nat), (∀ f ∈ l, (faceTri mesh id f).isSome) →
      (l.filterMap (faceTri mesh id)).length = l.length := by
    intro l
    induction l with
    | nil => intro _; rfl
    | cons f l ih =>
      intro hl
      obtain ⟨t, ht⟩ := Option.isSome_iff_exists.mp (hl f (by simp))
      rw [List.filterMap_cons_some ht]
      simp [ih (fun f hf => hl f (by simp [hf]))]
  exact this _ (Mesh.faces_some h id)

/-- One query. -/
theorem minDistance_spec {meshes : List Mesh} (hg : ∀ m ∈ meshes, m.good) {w : Store} (hw : StoreOf meshes w)
    {i j : Nat} {mesh1 mesh2 : Mesh} (hi : meshes[i]? = some mesh1) (hj : meshes[j]? = some mesh2)
    {g1 g2 : Pose} (h1 : Orthonormal g1.R) (h2 : Orthonormal g2.R) :
    ∃ r w', minDistance w i j g1.R g1.T g2.R g2.T = some (r, w') ∧ StoreOf meshes w' ∧
      RightAnswer mesh1 mesh2 g1 g2 r := by
  obtain ⟨hlen, hall⟩ := hw
  obtain ⟨v1, s1, f1⟩ := hg _ (List.mem_of_getElem? hi)
  obtain ⟨v2, s2, f2⟩ := hg _ (List.mem_of_getElem? hj)
  have li : i < w.length := by rw [hlen]; exact (List.getElem?_eq_some_iff.mp hi).1
  have lj : j < w.length := by rw [hlen]; exact (List.getElem?_eq_some_iff.mp hj).1
  obtain ⟨⟨o1, l1⟩, e1⟩ : ∃ x, w[i]? = some x := ⟨_, List.getElem?_eq_getElem li⟩
  obtain ⟨⟨o2, l2⟩, e2⟩ : ∃ x, w[j]? = some x := ⟨_, List.getElem?_eq_getElem lj⟩
  obtain ⟨mf1, hl1⟩ := hall i _ _ _ hi e1
  obtain ⟨mf2, hl2⟩ := hall j _ _ _ hj e2
  obtain ⟨id1, b1⟩ := mf1.built v1 f1
  obtain ⟨id2, b2⟩ := mf2.built v2 f2
  obtain ⟨r, e, k1, k2, ⟨t1, m1', t2, m2', p, q, hp, hq, p1, p2, _, _, hd, ho⟩, hbest⟩ :=
    distance_spec b1 b2 (s1.tris id1) (s2.tris id2) h1 h2 (by rw [Mesh.tris_length v1]; exact hl1)
      (by rw [Mesh.tris_length v2]; exact hl2) (le_refl 0) (le_refl 0)
  rw [Mesh.tris_length v1] at k1
  rw [Mesh.tris_length v2] at k2
  refine ⟨r, (w.set i (o1, r.last1)).set j (o2, r.last2), ?_, ⟨by simpa using hlen, ?_⟩, ⟨?_, ?_⟩,
    ⟨p, (mesh1.has_iff id1 p).mpr ⟨t1, m1', hp⟩, p1⟩, ⟨q, (mesh2.has_iff id2 q).mpr ⟨t2, m2', hq⟩, p2⟩, ?_⟩
  · unfold minDistance
    simp only [e1, e2, e]
  · intro k mesh m l hk hm
    rw [List.getElem?_set] at hm
    split_ifs at hm with hjk
    · subst hjk
      obtain rfl := Option.some.inj (hj.symm.trans hk)
      simp only [Option.some.injEq, Prod.mk.injEq] at hm
      obtain ⟨rfl, rfl⟩ := hm
      exact ⟨mf2, k2⟩
    · rw [List.getElem?_set] at hm
      split_ifs at hm with hik
      · subst hik
        obtain rfl := Option.some.inj (hi.symm.trans hk)
        simp only [Option.some.injEq, Prod.mk.injEq] at hm
        obtain ⟨rfl, rfl⟩ := hm
        exact ⟨mf1, k1⟩
      · exact hall k _ _ _ hk hm
  · obtain ⟨⟨x, y, hx, hy, ex⟩, _⟩ := hd
    exact ⟨x, y, (mesh1.has_iff id1 x).mpr ⟨t1, m1', hx⟩, (mesh2.has_iff id2 y).mpr ⟨t2, m2', hy⟩, ex⟩
  · intro x y hx hy
    have := (hbest x y ((mesh1.has_iff id1 x).mp hx) ((mesh2.has_iff id2 y).mp hy)).1
    linarith
  · intro hpos
    rcases ho with h | h
    · exact h.symm
    · linarith

/-- The two poses of a query. -/
def DQuery.pose1 (q : DQuery) : Pose := ⟨q.g1R, q.g1T⟩
def DQuery.pose2 (q : DQuery) : Pose := ⟨q.g2R, q.g2T⟩

/-- **Every answer of every sequence of queries is right**: each query of any sequence about the collision
models of some meshes, at any poses, with the same model twice or not, reports the smallest distance of the
two surfaces, and two points of them that are this far apart unless the distance is 0. -/
theorem C47_history {meshes : List Mesh} (hg : ∀ m ∈ meshes, m.good) (qs : List DQuery)
    (hq : ∀ q ∈ qs, q.i < meshes.length ∧ q.j < meshes.length ∧ Orthonormal q.g1R ∧ Orthonormal q.g2R) :
    ∀ {w : Store}, StoreOf meshes w →
    ∃ rs w', minDistances qs w = some (rs, w') ∧
      List.Forall₂ (fun q r => ∃ mesh1 mesh2, meshes[q.i]? = some mesh1 ∧ meshes[q.j]? = some mesh2 ∧
        RightAnswer mesh1 mesh2 q.pose1 q.pose2 r) qs rs := by
  induction qs with
  | nil => intro w _; exact ⟨[], w, rfl, .nil⟩
  | cons q qs ih =>
    intro w hw
    obtain ⟨hi, hj, o1, o2⟩ := hq q (by simp)
    have ei : meshes[q.i]? = some meshes[q.i] := List.getElem?_eq_getElem hi
    have ej : meshes[q.j]? = some meshes[q.j] := List.getElem?_eq_getElem hj
    obtain ⟨r, w', e, hw', hr⟩ := minDistance_spec hg hw ei ej (g1 := q.pose1) (g2 := q.pose2) o1 o2
    obtain ⟨rs, w'', e', hrs⟩ := ih (fun q' h => hq q' (by simp [h])) hw'
    refine ⟨r :: rs, w'', ?_, .cons ⟨_, _, ei, ej, hr⟩ hrs⟩
    have e2 : minDistance w q.i q.j q.g1R q.g1T q.g2R q.g2T = some (r, w') := e
    simp only [minDistances, e2, e']

/-- The smallest distance does not depend on the history of queries. -/
theorem C47_unique {g1 g2 : Pose} {has1 has2 : V3 → Prop} {d d' : ℝ} (h : IsDistance g1 has1 g2 has2 d)
    (h' : IsDistance g1 has1 g2 has2 d') : d = d' := by
  obtain ⟨⟨p, q, hp, hq, e⟩, low⟩ := h
  obtain ⟨⟨p', q', hp', hq', e'⟩, low'⟩ := h'
  exact le_antisymm (e' ▸ low p' q' hp' hq') (e ▸ low' p q hp hq)

/-- Newly made collision models are ready for queries. -/
theorem C47_new_models {meshes : List Mesh} (hg : ∀ m ∈ meshes, m.good) (eigs : Mesh → Eigen) (id : Mesh → Int) :
    ∃ w : Store, StoreOf meshes w ∧ ∀ x ∈ w, x.2 = 0 := by
  induction meshes with
  | nil => exact ⟨[], ⟨rfl, by simp⟩, by simp⟩
  | cons m ms ih =>
    obtain ⟨w, ⟨hl, hw⟩, h0⟩ := ih (fun x hx => hg x (by simp [hx]))
    obtain ⟨v, _, f⟩ := hg m (by simp)
    obtain ⟨pm, e, _, hp⟩ := createPQPModel_spec (eigs m) v (id m)
    have hne : m.tris (id m) ≠ [] := fun h => f ((Mesh.tris_eq_nil v (id m)).mp h)
    obtain ⟨m', _, eb, _⟩ := buildModel_spec (eigs m) hne
    refine ⟨(m', 0) :: w, ⟨by simp [hl], ?_⟩, by simpa using h0⟩
    intro k mesh mm l hk hm
    cases k with
    | zero =>
      simp only [List.getElem?_cons_zero, Option.some.injEq, Prod.mk.injEq] at hk hm
      obtain ⟨rfl, rfl⟩ := hm
      subst hk
      exact ⟨⟨eigs m, id m, pm, e, by rw [(hp f).2, eb]⟩, List.length_pos_iff.mpr f⟩
    | succ k =>
      simp only [List.getElem?_cons_succ] at hk hm
      exact hw k mesh mm l hk hm

/-- **Tiny triangles.**  The test of two triangles reports distance 0 for this pair, although all points of
the one are at least `10^-5` from all points of the other. -/
theorem C47_tiny_triangle :
    (triDist tinyS tinyT).d = 0 ∧
    ∀ x y, inTri (tinyS 0) (tinyS 1) (tinyS 2) x → inTri (tinyT 0) (tinyT 1) (tinyT 2) y →
      1 / 100000 ≤ euclid x y := by
  constructor
  · have f1 : faceTest tinyS tinyT = (false, none) := by
      norm_num [faceTest, dot, cross, vsub, sideVec, tinyS_0, tinyS_1, tinyS_2, fin11, fin12, fin21, fin22]
    have f2 : faceTest tinyT tinyS = (false, none) := by
      norm_num [faceTest, nearest, dot, cross, vsub, sideVec, tinyS_0, tinyS_1, tinyS_2, tinyT_0, tinyT_1, tinyT_2,
        fin11, fin12, fin21, fin22]
    unfold triDist
    rw [tiny_loop, f1, f2]
    simp
  · rintro x y ⟨u, v, w, hu, hv, hw, hs, rfl⟩ ⟨u', v', w', hu', hv', hw', hs', rfl⟩
    unfold euclid
    refine Real.le_sqrt_of_sq_le ?_
    simp only [tinyS_0, tinyS_1, tinyS_2, tinyT_0, tinyT_1, tinyT_2]
    have : 1 / 100000 ≤ u' * (1 / 100000) + v' * 1 + w' * 1 := by nlinarith
    have h2 : (1 / 100000 : ℝ) ^ 2 ≤ (u' * (1 / 100000) + v' * 1 + w' * 1) ^ 2 :=
      pow_le_pow_left₀ (by norm_num) this 2
    nlinarith [sq_nonneg (u * 0 + v * (1 / 10000) + w * 0 - (u' * (1 / 40000) + v' * 1 + w' * 0)),
      sq_nonneg (u * 0 + v * 0 + w * (1 / 10000) - (u' * (1 / 40000) + v' * 0 + w' * 1))]

/-- **Contact.**  For two triangles that cross, the distance 0 is reported, but the reported points are not
a point of contact: they are apart. -/
theorem C47_contact_points :
    (triDist crossingS crossingT).d = 0 ∧ (triDist crossingS crossingT).p ≠ (triDist crossingS crossingT).q := by
  have f1 : faceTest crossingS crossingT = (false, none) := by
    norm_num [faceTest, nearest, dot, cross, vsub, sideVec, crossingS_0, crossingS_1, crossingS_2, crossingT_0,
      crossingT_1, crossingT_2, fin11, fin12, fin21, fin22]
  have f2 : faceTest crossingT crossingS = (false, none) := by
    norm_num [faceTest, nearest, dot, cross, vsub, sideVec, crossingS_0, crossingS_1, crossingS_2, crossingT_0,
      crossingT_1, crossingT_2, fin11, fin12, fin21, fin22]
  unfold triDist
  rw [crossing_loop, f1, f2]
  simp
  norm_num

/-! ### C48 -/

/-- **Tolerance queries.**  A pair is reported if and only if points of the two surfaces are at most the
tolerance apart (a negative one counts as 0).  The reported points are on the surfaces, each in the
coordinates of its own model, and at the reported distance, unless that is 0. -/
theorem C48_tolerance {mesh1 mesh2 : Mesh} (hg1 : mesh1.good) (hg2 : mesh2.good) {m1 m2 : Model}
    (mf1 : MadeFrom mesh1 m1) (mf2 : MadeFrom mesh2 m2) {g1 g2 : Pose} (h1 : Orthonormal g1.R)
    (h2 : Orthonormal g2.R) (tol : ℝ) :
    ∃ r, tolerance tol g1.R g1.T m1 g2.R g2.T m2 = some r ∧
      (r.isSome ↔ ∃ p q, mesh1.has p ∧ mesh2.has q ∧ euclid (g1.at p) (g2.at q) ≤ max tol 0) ∧
      ∀ tr, r = some tr → tr.d ≤ max tol 0 ∧ mesh1.has tr.p ∧ mesh2.has tr.q ∧
        (0 < tr.d → euclid (g1.at tr.p) (g2.at tr.q) = tr.d) := by
  obtain ⟨v1, s1, f1⟩ := hg1
  obtain ⟨v2, s2, f2⟩ := hg2
  obtain ⟨id1, b1⟩ := mf1.built v1 f1
  obtain ⟨id2, b2⟩ := mf2.built v2 f2
  obtain ⟨r, e, hs, hn⟩ := tolerance_spec (fun h => f1 ((Mesh.tris_eq_nil v1 id1).mp h))
    (fun h => f2 ((Mesh.tris_eq_nil v2 id2).mp h)) b1 b2 (s1.tris id1) (s2.tris id2) h1 h2 tol
  refine ⟨r, e, ⟨?_, ?_⟩, ?_⟩
  · intro hr
    obtain ⟨tr, rfl⟩ := Option.isSome_iff_exists.mp hr
    obtain ⟨hd, t1, k1, t2, k2, _, _, ⟨⟨p, q, hp, hq, ep⟩, _⟩, _⟩ := hs tr rfl
    exact ⟨p, q, (mesh1.has_iff id1 p).mpr ⟨t1, k1, hp⟩, (mesh2.has_iff id2 q).mpr ⟨t2, k2, hq⟩, by rw [ep]; exact hd⟩
  · rintro ⟨p, q, hp, hq, hle⟩
    cases r with
    | some tr => rfl
    | none =>
      have := hn rfl p q ((mesh1.has_iff id1 p).mp hp) ((mesh2.has_iff id2 q).mp hq)
      linarith
  · intro tr htr
    obtain ⟨hd, t1, k1, t2, k2, hp, hq, _, ho⟩ := hs tr htr
    refine ⟨hd, (mesh1.has_iff id1 _).mpr ⟨t1, k1, hp⟩, (mesh2.has_iff id2 _).mpr ⟨t2, k2, hq⟩, ?_⟩
    intro hpos
    rcases ho with h | h
    · exact h.symm
    · linarith

/-- A triangle that is 40 away from the origin. -/
noncomputable def farTri : Tri := ⟨⟨40, 0, 1 / 100000⟩, ⟨50, 0, 1⟩, ⟨50, 1, 0⟩, 0⟩

theorem farTri_0 : farTri.corners 0 = ⟨40, 0, 1 / 100000⟩ := rfl
theorem farTri_1 : farTri.corners 1 = ⟨50, 0, 1⟩ := rfl
theorem farTri_2 : farTri.corners 2 = ⟨50, 1, 0⟩ := rfl
theorem pointTri_0 : pointTri.corners 0 = ⟨0, 0, 1 / 100000⟩ := rfl
theorem pointTri_1 : pointTri.corners 1 = ⟨0, 1 / 100000, 1 / 100000⟩ := rfl
theorem pointTri_2 : pointTri.corners 2 = ⟨0, 1 / 100000, 0⟩ := rfl

theorem far_step : triDist farTri.corners pointTri.corners = ⟨Real.sqrt 1600, ⟨40, 0, 1 / 100000⟩, ⟨0, 0, 1 / 100000⟩⟩ := by
  have : edgeStep farTri.corners pointTri.corners 0 0
      ⟨dist2 (farTri.corners 0) (pointTri.corners 0) + 1, farTri.corners 0, pointTri.corners 0, false,
        farTri.corners 0, pointTri.corners 0⟩
      = .inl ⟨Real.sqrt 1600, ⟨40, 0, 1 / 100000⟩, ⟨0, 0, 1 / 100000⟩⟩ := by
    norm_num [edgeStep, segPoints, clampQ, sideVec, dist2, dot, vsub, vadd, vscale, vaddScaled, cross, farTri_0,
      farTri_1, farTri_2, pointTri_0, pointTri_1, pointTri_2, Fin.isValue, zero_add]
  unfold triDist edgePairs
  simp only [edgeLoop, this]

/-- **The tolerance given for a point is ignored.**  Checking a point with any two tolerances but 0 gives
the same answer; here it is the answer "in collision" for a mesh that is everywhere at least 40 away from
the point, with a tolerance of 1. -/
theorem C48_point_tolerance_ignored :
    (∀ R T m p pm tol tol', tol ≠ 0 → tol' ≠ 0 → checkPoint R T m p tol pm = checkPoint R T m p tol' pm) ∧
    (∀ p, farTri.has p → 40 ≤ euclid p zero3) ∧
    ∀ eig1 eig2, ∃ m pm, buildModel eig1 [farTri] = some m ∧ buildModel eig2 [pointTri] = some pm ∧
      checkPoint one3 zero3 m zero3 1 pm = some true := by
  refine ⟨?_, ?_, ?_⟩
  · intro R T m p pm tol tol' h h'
    unfold checkPoint
    rw [if_neg h, if_neg h']
  · rintro p ⟨u, v, w, hu, hv, hw, hs, rfl⟩
    unfold euclid
    refine Real.le_sqrt_of_sq_le ?_
    simp only [farTri, zero3]
    have : 40 ≤ u * 40 + v * 50 + w * 50 := by nlinarith
    have h2 : (40 : ℝ) ^ 2 ≤ (u * 40 + v * 50 + w * 50) ^ 2 := pow_le_pow_left₀ (by norm_num) this 2
    nlinarith [sq_nonneg (u * 0 + v * 0 + w * 1 - 0), sq_nonneg (u * (1 / 100000) + v * 1 + w * 0 - 0)]
  · intro eig1 eig2
    obtain ⟨m, _, e1, _⟩ := buildModel_spec eig1 (ts := [farTri]) (by simp)
    obtain ⟨pm, _, e2, _⟩ := buildModel_spec eig2 (ts := [pointTri]) (by simp)
    refine ⟨m, pm, e1, e2, ?_⟩
    have key : triDistance (tmulM one3 one3) (tmulV one3 (vsub zero3 zero3)) farTri pointTri
        = ⟨Real.sqrt 1600, ⟨40, 0, 1 / 100000⟩, ⟨0, 0, 1 / 100000⟩⟩ := by
      rw [← far_step]
      unfold triDistance
      congr 1
      funext k
      ext <;> simp [mulVpV, tmulM, tmulV, one3, zero3, vsub, dot]
    have s40 : Real.sqrt 1600 = 40 := by
      rw [show (1600 : ℝ) = 40 ^ 2 by norm_num]
      exact Real.sqrt_sq (by norm_num)
    have low : ∀ p q, farTri.has p → pointTri.has q →
        Real.sqrt 1600 ≤ gap (tmulM one3 one3) (tmulV one3 (vsub zero3 zero3)) p q := by
      rintro p q ⟨u, v, w, hu, hv, hw, hs, rfl⟩ ⟨u', v', w', hu', hv', hw', hs', rfl⟩
      unfold gap len3
      refine Real.sqrt_le_sqrt ?_
      simp only [farTri, pointTri, dot, vsub, mulVpV, tmulM, tmulV, one3, zero3]
      have : 40 ≤ u * 40 + v * 50 + w * 50 := by nlinarith
      nlinarith [mul_self_nonneg (u * 40 + v * 50 + w * 50 - 40),
        mul_self_nonneg (u * 0 + v * 0 + w * 1 - (u' * 0 + v' * (1 / 100000) + w' * (1 / 100000))),
        mul_self_nonneg (u * (1 / 100000) + v * 1 + w * 0 - (u' * (1 / 100000) + v' * (1 / 100000) + w' * 0))]
    obtain ⟨r, e, _, hn⟩ := tolerance_core (g1 := ⟨one3, zero3⟩) (g2 := ⟨one3, zero3⟩) (by simp) (by simp)
      ⟨eig1, e1⟩ ⟨eig2, e2⟩ Orthonormal.one Orthonormal.one (by
        intro t1 ht1 t2 ht2 p q hp hq
        simp only [List.mem_singleton] at ht1 ht2
        subst ht1 ht2
        rw [key]
        exact low p q hp hq) 50
    unfold checkPoint
    rw [if_neg one_ne_zero]
    simp only at e
    rw [e]
    cases r with
    | some tr => rfl
    | none =>
      exfalso
      have := hn rfl ⟨40, 0, 1 / 100000⟩ ⟨0, 0, 1 / 100000⟩
        ⟨farTri, by simp, 1, 0, 0, by norm_num, by norm_num, by norm_num, by norm_num, by ext <;> simp [farTri]⟩
        ⟨pointTri, by simp, 1, 0, 0, by norm_num, by norm_num, by norm_num, by norm_num, by ext <;> simp [pointTri]⟩
      have h50 : max (50 : ℝ) 0 = 50 := max_eq_left (by norm_num)
      rw [h50] at this
      have h40 : euclid (Pose.at ⟨one3, zero3⟩ ⟨40, 0, 1 / 100000⟩) (Pose.at ⟨one3, zero3⟩ ⟨0, 0, 1 / 100000⟩) = 40 := by
        rw [← s40]
        unfold euclid
        congr 1
        norm_num [Pose.at, one3, zero3]
      rw [h40] at this
      norm_num at this

/-! ### The hypotheses can be met -/

theorem exMesh_good : exMesh.good := by
  refine ⟨?_, ?_, by simp [exMesh]⟩
  · intro i j k h
    simp [exMesh] at h
    rcases h with ⟨rfl, rfl, rfl⟩ | ⟨rfl, rfl, rfl⟩ <;> simp [exMesh]
  · intro i j k a b c h
    simp [exMesh] at h
    rcases h with ⟨rfl, rfl, rfl⟩ | ⟨rfl, rfl, rfl⟩ <;>
    · simp only [exMesh, List.getElem?_cons_zero, List.getElem?_cons_succ, Option.some.injEq]
      rintro rfl rfl rfl
      right
      norm_num [cross, vsub, dot]

example : ∃ w : Store, StoreOf [exMesh, exMesh] w ∧ ∀ x ∈ w, x.2 = 0 :=
  C47_new_models (by simpa using exMesh_good) (fun _ _ => ([], zero3)) (fun _ => 7)

example : ∃ d, IsDistance exPose exMesh.has ⟨one3, zero3⟩ exMesh.has d := by
  obtain ⟨w, hw, _⟩ := C47_new_models (meshes := [exMesh]) (by simpa using exMesh_good) (fun _ _ => ([], zero3)) (fun _ => 7)
  obtain ⟨r, _, _, _, h, _⟩ := minDistance_spec (meshes := [exMesh]) (by simpa using exMesh_good) hw (i := 0) (j := 0)
    rfl rfl (g1 := exPose) (g2 := ⟨one3, zero3⟩) (by norm_num [Orthonormal, exPose, dot]) Orthonormal.one
  exact ⟨r.dist, h⟩

end Simox.Pqp
