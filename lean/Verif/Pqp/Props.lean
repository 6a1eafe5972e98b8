/-
C45: collision queries.  C46: the building protocol.
-/
import Verif.Pqp.Collide2

namespace Simox.Pqp

/-! ## C45 -/

open Classical in
/-- **All contacts.**  For models built from non-empty lists of triangles the query for all contacts
comes to an end without leaving an array.  It reports every touching pair of triangles, as often as it
occurs, and no pair of triangles twice. -/
theorem C45_all_contacts (eig1 eig2 : Eigen) {ts1 ts2 : List Tri} (n1 : ts1 ≠ []) (n2 : ts2 ≠ [])
    {g1 g2 : Pose} (h1 : Orthonormal g1.R) (h2 : Orthonormal g2.R) :
    ∃ m1 m2 : Model, buildModel eig1 ts1 = some m1 ∧ buildModel eig2 ts2 = some m2 ∧
      ∃ l : List (Tri × Tri),
        collide false g1.R g1.T m1 g2.R g2.T m2 = some (l.map (fun p => (p.1.id, p.2.id))) ∧
        l.Subperm (ts1.product ts2) ∧
        ((ts1.product ts2).filter (fun p => decide (Touch g1 p.1 g2 p.2))).Subperm l := by
  obtain ⟨m1, m2, e1, e2, l, a, _, b, c⟩ := collide_spec (eig1 := eig1) (eig2 := eig2) n1 n2 h1 h2
  exact ⟨m1, m2, e1, e2, l, a, b.trans List.filter_sublist.subperm, c⟩

open Classical in
/-- **Exactness.**  If no triangle is degenerate, the reported pairs are exactly the touching pairs. -/
theorem C45_exact (eig1 eig2 : Eigen) {ts1 ts2 : List Tri} (n1 : ts1 ≠ []) (n2 : ts2 ≠ [])
    (pr1 : ∀ t ∈ ts1, t.proper) (pr2 : ∀ t ∈ ts2, t.proper)
    {g1 g2 : Pose} (h1 : Orthonormal g1.R) (h2 : Orthonormal g2.R) :
    ∃ m1 m2 : Model, buildModel eig1 ts1 = some m1 ∧ buildModel eig2 ts2 = some m2 ∧
      ∃ l : List (Tri × Tri),
        collide false g1.R g1.T m1 g2.R g2.T m2 = some (l.map (fun p => (p.1.id, p.2.id))) ∧
        l.Perm ((ts1.product ts2).filter (fun p => decide (Touch g1 p.1 g2 p.2))) := by
  obtain ⟨m1, m2, e1, e2, l, a, _, b, c⟩ := collide_spec (eig1 := eig1) (eig2 := eig2) n1 n2 h1 h2
  refine ⟨m1, m2, e1, e2, l, a, List.Subperm.antisymm ?_ c⟩
  refine b.trans ?_
  have : (ts1.product ts2).filter (passes (tmulM g1.R g2.R) (tmulV g1.R (vsub g2.T g1.T)))
      = (ts1.product ts2).filter (fun p => decide (Touch g1 p.1 g2 p.2)) := by
    refine List.filter_congr ?_
    rintro ⟨t1, t2⟩ hm
    rw [List.pair_mem_product] at hm
    rw [Bool.eq_iff_iff, decide_eq_true_iff, touch_iff_touchRel h1]
    exact ⟨fun h => touchRel_of_triContact (h1.tmul h2) (pr1 _ hm.1) (pr2 _ hm.2) h, triContact_of_touchRel⟩
  rw [this]

/-- **First contact.**  The query for a first contact reports the first of all contacts, and nothing if
there is none. -/
theorem C45_first_contact (eig1 eig2 : Eigen) {ts1 ts2 : List Tri} (n1 : ts1 ≠ []) (n2 : ts2 ≠ [])
    {g1 g2 : Pose} (h1 : Orthonormal g1.R) (h2 : Orthonormal g2.R) :
    ∃ m1 m2 : Model, buildModel eig1 ts1 = some m1 ∧ buildModel eig2 ts2 = some m2 ∧
      ∃ all, collide false g1.R g1.T m1 g2.R g2.T m2 = some all ∧
        collide true g1.R g1.T m1 g2.R g2.T m2 = some (all.take 1) := by
  obtain ⟨m1, m2, e1, e2, l, a, b, _⟩ := collide_spec (eig1 := eig1) (eig2 := eig2) n1 n2 h1 h2
  exact ⟨m1, m2, e1, e2, _, a, b⟩

/-- **Degenerate triangles.**  The test of two triangles accepts this pair although the triangles have
no common point: the first one has its corners on a line. -/
theorem C45_degenerate_pair :
    triContact ⟨-10, 0, 0⟩ ⟨10, 0, 0⟩ ⟨0, 0, 0⟩ ⟨0, 1, 0⟩ ⟨-1, 5, 0⟩ ⟨1, 6, 0⟩ = true ∧
    ¬ ∃ x, inTri ⟨-10, 0, 0⟩ ⟨10, 0, 0⟩ ⟨0, 0, 0⟩ x ∧ inTri ⟨0, 1, 0⟩ ⟨-1, 5, 0⟩ ⟨1, 6, 0⟩ x := by
  constructor
  · norm_num [triContact, contactTests, project6, vsub, cross, dot, min3, max3]
  · rintro ⟨x, ⟨u, v, w, _, _, _, _, rfl⟩, ⟨u', v', w', h1, h2, h3, h4, h⟩⟩
    have := congrArg V3.y h
    simp only at this
    linarith

/-! ## C46 -/

/-- The arrays are as large as they need to be and agree with what the client knows. -/
structure Agree (eig : Eigen) (m : PModel) (k : Known) : Prop where
  tris : m.added = k.tris
  fin : m.state = .processed ↔ k.finished = true
  again : m.bPtr = .dangling ↔ k.begunAgain = true
  live : m.state = .processed → m.bPtr = .live
  notLive : m.state ≠ .processed → m.bPtr ≠ .live
  triPtr : m.triPtr ≠ .dangling
  fresh : m.state = .empty → m.added = [] ∧ m.bPtr = .null
  cap : m.state = .begun → 0 < m.alloced ∧ m.added.length ≤ m.alloced
  built : m.state = .processed → m.built = buildModel eig m.added ∧ m.added ≠ []
  exact : m.state = .processed → m.alloced = m.added.length

theorem beginSize_pos (n : Int) : 0 < beginSize n := by
  unfold beginSize
  split_ifs <;> omega

theorem agree_new (eig : Eigen) : Agree eig newPModel Known.new := by
  constructor <;> simp [newPModel, Known.new]

theorem agree_begin {eig : Eigen} {m : PModel} {k : Known} (h : Agree eig m k) (n : Int) :
    (k.begunAgain = true → beginModel n m = none) ∧
    (k.begunAgain = false → ∃ m' r, beginModel n m = some (m', r) ∧ Agree eig m' ⟨false, [], k.finished⟩) := by
  have hp := beginSize_pos n
  constructor
  · intro hb
    have hd := h.again.mpr hb
    unfold beginModel
    have : m.state ≠ .empty := fun he => by have := (h.fresh he).2; rw [hd] at this; cases this
    rw [if_pos this, hd]
    rfl
  · intro hb
    have hd : m.bPtr ≠ .dangling := fun he => by rw [h.again.mp he] at hb; cases hb
    unfold beginModel
    by_cases hs : m.state = .empty
    · rw [if_neg (by simp [hs])]
      obtain ⟨f1, f2⟩ := h.fresh hs
      have hk : k.finished = false := by
        rw [← Bool.not_eq_true, ← h.fin, hs]; simp
      refine ⟨_, _, rfl, ?_⟩
      constructor <;> simp_all
    · rw [if_pos hs]
      have e1 : m.bPtr.delete = some () := by
        cases hx : m.bPtr
        · rfl
        · rfl
        · exact absurd hx hd
      have e2 : m.triPtr.delete = some () := by
        cases hx : m.triPtr
        · rfl
        · rfl
        · exact absurd hx h.triPtr
      rw [e1, e2]
      refine ⟨_, _, rfl, ?_⟩
      by_cases hpr : m.state = .processed
      · have := h.live hpr
        have hk := h.fin.mp hpr
        constructor <;> simp_all
      · have h1 := h.notLive hpr
        have hk : k.finished = false := by
          rw [← Bool.not_eq_true, ← h.fin]; exact hpr
        constructor <;> simp_all

theorem agree_add {eig : Eigen} {m : PModel} {k : Known} (h : Agree eig m k) (t : Tri) :
    ∃ m' r, addTri t m = some (m', r) ∧
      Agree eig m' (if k.finished then k else { k with tris := k.tris ++ [t] }) := by
  unfold addTri
  cases hs : m.state with
  | processed =>
    have hk := h.fin.mp hs
    simp only [hk]
    exact ⟨m, _, rfl, h⟩
  | empty =>
    obtain ⟨f1, f2⟩ := h.fresh hs
    have hk : k.finished = false := by
      rw [← Bool.not_eq_true, ← h.fin, hs]; simp
    have hb : k.begunAgain = false := by
      rw [← Bool.not_eq_true, ← h.again, f2]; simp
    have ht := h.tris
    refine ⟨⟨.begun, .null, .live, [t], 8, m.built⟩, .ok, ?_, ?_⟩
    · simp [beginModel, hs, beginSize, f1, f2]
    · simp only [hk, Bool.false_eq_true, if_false]
      rw [f1] at ht
      constructor <;> simp_all
  | begun =>
    have hk : k.finished = false := by
      rw [← Bool.not_eq_true, ← h.fin, hs]; simp
    obtain ⟨c1, c2⟩ := h.cap hs
    simp only [hk, Bool.false_eq_true, if_false]
    have hcap : m.added.length < (if m.added.length ≥ m.alloced then m.alloced * 2 else m.alloced) := by
      split_ifs <;> omega
    refine ⟨{ m with added := m.added ++ [t], alloced := if m.added.length ≥ m.alloced then m.alloced * 2 else m.alloced }, .ok, ?_, ?_⟩
    · simp [hcap]
    · obtain ⟨a1, a2, a3, a4, a5, a6, a7, a8, a9, a10⟩ := h
      constructor <;> simp_all
      split_ifs <;> omega

theorem agree_end {eig : Eigen} {m : PModel} {k : Known} (h : Agree eig m k) :
    ∃ m' r, endModel eig m = some (m', r) ∧
      Agree eig m' (if k.finished || k.tris.isEmpty then k else ⟨true, k.tris, false⟩) := by
  unfold endModel
  by_cases hs : m.state = .processed
  · have hk := h.fin.mp hs
    rw [if_pos hs]
    simp only [hk, Bool.true_or, if_true]
    exact ⟨m, _, rfl, h⟩
  · have hk : k.finished = false := by
      rw [← Bool.not_eq_true, ← h.fin]; exact hs
    rw [if_neg hs]
    by_cases hl : m.added.length = 0
    · have he : k.tris.isEmpty = true := by
        rw [← h.tris, List.isEmpty_iff, ← List.length_eq_zero_iff]; exact hl
      rw [if_pos hl]
      simp only [he, Bool.or_true, if_true]
      exact ⟨m, _, rfl, h⟩
    · have hne : m.added ≠ [] := fun h => hl (by rw [h]; rfl)
      have he : k.tris.isEmpty = false := by
        rw [← h.tris, List.isEmpty_eq_false_iff]; exact hne
      obtain ⟨tr, _, hb, _⟩ := buildModel_spec eig hne
      rw [if_neg hl, hb]
      simp only [hk, he, Bool.or_self, Bool.false_eq_true, if_false]
      refine ⟨_, _, rfl, ?_⟩
      obtain ⟨a1, a2, a3, a4, a5, a6, a7, a8, a9, a10⟩ := h
      constructor <;> simp_all

theorem runCalls_agree (eig : Eigen) (cs : List Call) : ∀ (m : PModel) (k : Known), Agree eig m k →
    match Known.afterAll cs k with
    | none => runCalls eig cs m = none
    | some k' => ∃ m', runCalls eig cs m = some m' ∧ Agree eig m' k' := by
  induction cs with
  | nil =>
    intro m k h
    exact ⟨m, rfl, h⟩
  | cons c cs ih =>
    intro m k h
    unfold Known.afterAll runCalls
    cases c with
    | beginM n =>
      obtain ⟨h1, h2⟩ := agree_begin h n
      simp only [Known.after, call]
      cases hb : k.begunAgain with
      | true => simp only [if_true, h1 hb]
      | false =>
        obtain ⟨m', r, e, ha⟩ := h2 hb
        simp only [e, Bool.false_eq_true, if_false]
        exact ih m' _ ha
    | add t =>
      obtain ⟨m', r, e, ha⟩ := agree_add h t
      simp only [Known.after, call, e]
      cases hk : k.finished with
      | true => simp only [hk, if_true] at ha ⊢; exact ih m' _ ha
      | false => simp only [hk, Bool.false_eq_true, if_false] at ha ⊢; exact ih m' _ ha
    | endM =>
      obtain ⟨m', r, e, ha⟩ := agree_end h
      simp only [Known.after, call, e]
      cases hk : (k.finished || k.tris.isEmpty) with
      | true => simp only [hk, if_true] at ha ⊢; exact ih m' _ ha
      | false => simp only [hk, Bool.false_eq_true, if_false] at ha ⊢; exact ih m' _ ha

/-- **Protocol.**  Over any sequence of `BeginModel`, `AddTri` and `EndModel` on a new model: memory is
freed twice exactly if `BeginModel` is called twice after a successful `EndModel` with no successful
`EndModel` in between.  Otherwise the model holds exactly the triangles added since it was last begun, it
is ready for queries exactly if `EndModel` has been called with at least one triangle since then, and the
tree it has been given is the one for these triangles. -/
theorem C46_protocol (eig : Eigen) (cs : List Call) :
    match Known.afterAll cs Known.new with
    | none => runCalls eig cs newPModel = none
    | some k => ∃ m, runCalls eig cs newPModel = some m ∧ m.added = k.tris ∧
        (m.state = .processed ↔ k.finished = true) ∧
        (k.finished = true → k.tris ≠ [] ∧ m.built = buildModel eig k.tris ∧ m.built ≠ none) ∧
        (destroy m = none ↔ k.begunAgain = true) := by
  have h := runCalls_agree eig cs _ _ (agree_new eig)
  cases hk : Known.afterAll cs Known.new with
  | none => rw [hk] at h; exact h
  | some k =>
    rw [hk] at h
    obtain ⟨m, e, ha⟩ := h
    refine ⟨m, e, ha.tris, ha.fin, ?_, ?_⟩
    · intro hf
      obtain ⟨b1, b2⟩ := ha.built (ha.fin.mpr hf)
      rw [ha.tris] at b1 b2
      refine ⟨b2, b1, ?_⟩
      obtain ⟨tr, _, hb, _⟩ := buildModel_spec eig b2
      rw [b1, hb]; simp
    · rw [← ha.again]
      unfold destroy
      have := ha.triPtr
      cases m.bPtr <;> cases hx : m.triPtr <;> simp_all [Ptr.delete]

/-- A model finished, begun again and destroyed: the destructor frees memory that is already freed. -/
theorem C46_double_free (eig : Eigen) (t : Tri) :
    (∃ m, runCalls eig [.beginM 1, .add t, .endM, .beginM 1] newPModel = some m ∧ destroy m = none) ∧
    runCalls eig [.beginM 1, .add t, .endM, .beginM 1, .beginM 1] newPModel = none := by
  have h1 := C46_protocol eig [.beginM 1, .add t, .endM, .beginM 1]
  have h2 := C46_protocol eig [.beginM 1, .add t, .endM, .beginM 1, .beginM 1]
  simp only [Known.afterAll, Known.after, Known.new, Bool.false_eq_true, if_false, Bool.or_self,
    List.nil_append, List.isEmpty_cons, if_true] at h1 h2
  obtain ⟨m, e, _, _, _, hd⟩ := h1
  exact ⟨⟨m, e, hd.mpr trivial⟩, h2⟩

/-! ## Meshes (C45, end to end) -/

/-- Adding the faces of a mesh. -/
theorem faces_added (mesh : Mesh) (id : Int) : ∀ (fs : List (Nat × Nat × Nat)),
    (∀ f ∈ fs, (faceTri mesh id f).isSome) → ∀ (m : PModel), m.state = .begun → 0 < m.alloced →
    m.added.length ≤ m.alloced →
    ∃ m', fs.foldl (addFace mesh id) (some m) = some m' ∧ m'.state = .begun ∧
      m'.added = m.added ++ fs.filterMap (faceTri mesh id) := by
  intro fs
  induction fs with
  | nil => intro _ m hs _ _; exact ⟨m, rfl, hs, by simp⟩
  | cons f fs ih =>
    intro hf m hs hc hl
    obtain ⟨t, ht⟩ := Option.isSome_iff_exists.mp (hf f (by simp))
    have hcap : m.added.length < (if m.added.length ≥ m.alloced then m.alloced * 2 else m.alloced) := by
      split_ifs <;> omega
    have e : addTri t m = some ({ m with added := m.added ++ [t], alloced := if m.added.length ≥ m.alloced then m.alloced * 2 else m.alloced }, .ok) := by
      simp only [addTri, hs]
      simp [hcap, hs]
    obtain ⟨m', e', s', a'⟩ := ih (fun g hg => hf g (by simp [hg]))
      { m with added := m.added ++ [t], alloced := if m.added.length ≥ m.alloced then m.alloced * 2 else m.alloced }
      hs (by simp only; omega) (by simp only [List.length_append, List.length_singleton]; omega)
    refine ⟨m', ?_, s', ?_⟩
    · rw [List.foldl_cons]
      simp only [addFace, ht, e, Option.map_some]
      exact e'
    · rw [a']
      simp [ht]

/-- The triangles of a mesh. -/
def Mesh.tris (mesh : Mesh) (id : Int) : List Tri := mesh.faces.filterMap (faceTri mesh id)

theorem faceTri_some {mesh : Mesh} {id : Int} {i j k : Nat} {t : Tri} (h : faceTri mesh id (i, j, k) = some t) :
    mesh.vertices[i]? = some t.p1 ∧ mesh.vertices[j]? = some t.p2 ∧ mesh.vertices[k]? = some t.p3 := by
  simp only [faceTri] at h
  split at h
  · rename_i a b c h1 h2 h3
    cases h
    exact ⟨h1, h2, h3⟩
  · cases h

theorem Mesh.has_iff (mesh : Mesh) (id : Int) (p : V3) : mesh.has p ↔ ∃ t ∈ mesh.tris id, t.has p := by
  constructor
  · rintro ⟨i, j, k, a, b, c, hf, h1, h2, h3, hp⟩
    refine ⟨⟨a, b, c, id⟩, ?_, hp⟩
    refine List.mem_filterMap.mpr ⟨(i, j, k), hf, ?_⟩
    simp only [faceTri, h1, h2, h3]
  · rintro ⟨t, ht, hp⟩
    obtain ⟨⟨i, j, k⟩, hf, e⟩ := List.mem_filterMap.mp ht
    obtain ⟨h1, h2, h3⟩ := faceTri_some e
    exact ⟨i, j, k, _, _, _, hf, h1, h2, h3, hp⟩

theorem Mesh.faces_some {mesh : Mesh} (h : mesh.valid) (id : Int) : ∀ f ∈ mesh.faces, (faceTri mesh id f).isSome := by
  rintro ⟨i, j, k⟩ hf
  obtain ⟨h1, h2, h3⟩ := h i j k hf
  simp [faceTri, h1, h2, h3]

theorem Mesh.tris_eq_nil {mesh : Mesh} (h : mesh.valid) (id : Int) : mesh.tris id = [] ↔ mesh.faces = [] := by
  constructor
  · intro he
    cases hf : mesh.faces with
    | nil => rfl
    | cons f fs =>
      exfalso
      obtain ⟨t, ht⟩ := Option.isSome_iff_exists.mp (Mesh.faces_some h id f (by simp [hf]))
      have : t ∈ mesh.tris id := List.mem_filterMap.mpr ⟨f, by simp [hf], ht⟩
      rw [he] at this
      cases this
  · intro he
    simp [Mesh.tris, he]

theorem createPQPModel_spec (eig : Eigen) {mesh : Mesh} (h : mesh.valid) (id : Int) :
    ∃ m, createPQPModel eig mesh id = some m ∧
      (mesh.faces = [] → m.state = .begun) ∧
      (mesh.faces ≠ [] → m.state = .processed ∧ m.built = buildModel eig (mesh.tris id)) := by
  unfold createPQPModel
  have e0 : beginModel mesh.faces.length newPModel
      = some (⟨.begun, .null, .live, [], beginSize mesh.faces.length, none⟩, .ok) := by
    simp [beginModel, newPModel]
  rw [e0]
  obtain ⟨m', e', s', a'⟩ := faces_added mesh id mesh.faces (Mesh.faces_some h id)
    ⟨.begun, .null, .live, [], beginSize mesh.faces.length, none⟩ rfl (beginSize_pos _) (by simp)
  simp only [e']
  simp only [List.nil_append] at a'
  have hn := Mesh.tris_eq_nil h id
  have hs : m'.state ≠ .processed := by rw [s']; simp
  unfold endModel
  rw [if_neg hs]
  by_cases hf : mesh.faces = []
  · have : m'.added = [] := by rw [a']; exact hn.mpr hf
    rw [if_pos (by rw [this]; rfl)]
    exact ⟨m', rfl, fun _ => s', fun h => absurd hf h⟩
  · have hne : mesh.tris id ≠ [] := fun h => hf (hn.mp h)
    have hne' : m'.added ≠ [] := by rw [a']; exact hne
    rw [if_neg (fun h => hne' (List.length_eq_zero_iff.mp h)), a']
    obtain ⟨tr, _, hb, _⟩ := buildModel_spec eig hne
    change ∃ m, Option.map _ (match buildModel eig (mesh.tris id) with | none => none | some tr => _) = some m ∧ _
    rw [hb]
    exact ⟨_, rfl, fun h => absurd h hf, fun _ => ⟨rfl, rfl⟩⟩

open Classical in
/-- **No collision is missed.**  The collision models of two valid meshes can always be built and
compared.  If some point of the one surface coincides with a point of the other, the answer is `true`.
If no face of either mesh is degenerate, the answer is `true` in no other case. -/
theorem C45_check_collision (eig1 eig2 : Eigen) {mesh1 mesh2 : Mesh} (v1 : mesh1.valid) (v2 : mesh2.valid)
    (id1 id2 : Int) {g1 g2 : Pose} (h1 : Orthonormal g1.R) (h2 : Orthonormal g2.R) :
    ∃ m1 m2 answer, createPQPModel eig1 mesh1 id1 = some m1 ∧ createPQPModel eig2 mesh2 id2 = some m2 ∧
      checkCollision g1.R g1.T m1 g2.R g2.T m2 = some answer ∧
      ((∃ p q, mesh1.has p ∧ mesh2.has q ∧ g1.at p = g2.at q) → answer = true) ∧
      (mesh1.proper → mesh2.proper → answer = true →
        ∃ p q, mesh1.has p ∧ mesh2.has q ∧ g1.at p = g2.at q) := by
  obtain ⟨m1, e1, b1, p1⟩ := createPQPModel_spec eig1 v1 id1
  obtain ⟨m2, e2, b2, p2⟩ := createPQPModel_spec eig2 v2 id2
  have none_has : ∀ mesh : Mesh, mesh.faces = [] → ∀ p, ¬ mesh.has p := by
    rintro mesh hf p ⟨i, j, k, a, b, c, hm, _⟩
    rw [hf] at hm
    cases hm
  by_cases f1 : mesh1.faces = []
  · refine ⟨m1, m2, false, e1, e2, ?_, ?_, by simp⟩
    · simp [checkCollision, query, b1 f1]
    · rintro ⟨p, q, hp, _⟩
      exact absurd hp (none_has mesh1 f1 p)
  by_cases f2 : mesh2.faces = []
  · refine ⟨m1, m2, false, e1, e2, ?_, ?_, by simp⟩
    · simp [checkCollision, query, b2 f2]
    · rintro ⟨p, q, _, hq, _⟩
      exact absurd hq (none_has mesh2 f2 q)
  have n1 : mesh1.tris id1 ≠ [] := fun h => f1 ((Mesh.tris_eq_nil v1 id1).mp h)
  have n2 : mesh2.tris id2 ≠ [] := fun h => f2 ((Mesh.tris_eq_nil v2 id2).mp h)
  obtain ⟨t1, t2, c1, c2, l, _, a, s1, s2⟩ := collide_spec (eig1 := eig1) (eig2 := eig2) n1 n2 h1 h2
  obtain ⟨st1, bl1⟩ := p1 f1
  obtain ⟨st2, bl2⟩ := p2 f2
  rw [c1] at bl1
  rw [c2] at bl2
  refine ⟨m1, m2, decide (((l.map idPair).take 1).length ≠ 0), e1, e2, ?_, ?_, ?_⟩
  · simp only [checkCollision, query, st1, st2, bl1, bl2, a]
    simp
  · rintro ⟨p, q, hp, hq, e⟩
    obtain ⟨x, hx, hxp⟩ := (Mesh.has_iff mesh1 id1 p).mp hp
    obtain ⟨y, hy, hyq⟩ := (Mesh.has_iff mesh2 id2 q).mp hq
    have hm : (x, y) ∈ ((mesh1.tris id1).product (mesh2.tris id2)).filter
        (fun p => decide (Touch g1 p.1 g2 p.2)) := by
      rw [List.mem_filter, List.pair_mem_product]
      exact ⟨⟨hx, hy⟩, decide_eq_true ⟨p, q, hxp, hyq, e⟩⟩
    have := s2.subset hm
    cases l with
    | nil => cases this
    | cons z l => simp
  · intro q1 q2 ha
    cases l with
    | nil => simp at ha
    | cons z l =>
      have hz := s1.subset (List.mem_cons_self (a := z) (l := l))
      rw [List.mem_filter] at hz
      obtain ⟨hz1, hz2⟩ := hz
      obtain ⟨x, y⟩ := z
      rw [List.pair_mem_product] at hz1
      have prop : ∀ (mesh : Mesh) (id : Int), mesh.proper → ∀ t ∈ mesh.tris id, t.proper := by
        intro mesh id hp t ht
        obtain ⟨⟨i, j, k⟩, hf, e⟩ := List.mem_filterMap.mp ht
        obtain ⟨h1, h2, h3⟩ := faceTri_some e
        exact hp i j k _ _ _ hf h1 h2 h3
      have := touchRel_of_triContact (h1.tmul h2) (prop _ _ q1 x hz1.1) (prop _ _ q2 y hz1.2) hz2
      obtain ⟨p, q, hp, hq, e⟩ := (touch_iff_touchRel h1 x y).mpr this
      exact ⟨p, q, (Mesh.has_iff _ id1 _).mpr ⟨x, hz1.1, hp⟩, (Mesh.has_iff _ id2 _).mpr ⟨y, hz1.2, hq⟩, e⟩

/-! ### The hypotheses can be met -/

/-- A quarter turn about the vertical axis. -/
def exPose : Pose := ⟨⟨⟨0, 1, 0⟩, ⟨-1, 0, 0⟩, ⟨0, 0, 1⟩⟩, ⟨1, 2, 3⟩⟩

/-- A square of two triangles. -/
def exMesh : Mesh := ⟨[⟨0, 0, 0⟩, ⟨1, 0, 0⟩, ⟨1, 1, 0⟩, ⟨0, 1, 0⟩], [(0, 1, 2), (0, 2, 3)]⟩

example : Orthonormal exPose.R := by norm_num [Orthonormal, exPose, dot]

example : exMesh.valid := by
  intro i j k h
  simp [exMesh] at h
  rcases h with ⟨rfl, rfl, rfl⟩ | ⟨rfl, rfl, rfl⟩ <;> simp [exMesh]

example : exMesh.proper := by
  intro i j k a b c h
  simp [exMesh] at h
  rcases h with ⟨rfl, rfl, rfl⟩ | ⟨rfl, rfl, rfl⟩ <;>
  · simp only [exMesh, List.getElem?_cons_zero, List.getElem?_cons_succ, Option.some.injEq]
    rintro rfl rfl rfl h
    have := congrArg V3.z h
    norm_num [cross, vsub, zero3] at this

example : exMesh.has ⟨1, 0, 0⟩ :=
  ⟨0, 1, 2, _, _, _, by simp [exMesh], rfl, rfl, rfl, 0, 1, 0, by norm_num, by norm_num, by norm_num, by norm_num,
    by ext <;> simp⟩

/-- A protocol with a rebuilt model. -/
example (t u : Tri) : Known.afterAll [.add t, .endM, .add u, .beginM 3, .add u, .endM] Known.new
    = some ⟨true, [u], false⟩ := by
  simp [Known.afterAll, Known.after, Known.new]

end Simox.Pqp
