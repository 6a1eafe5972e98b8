import Verif.Msh.MergeProps
import Verif.Rot.DirLemmas

/-!
# C124: normals, colours and moving the surface
-/

namespace Simox.Msh

open Matrix Jac Rot

variable {C : Type}

/-! ## Specification -/

/-- The normal a face should have: its own, if it has one, otherwise that of the triangle. -/
def OwnNormal (m : Mesh C) (f : Face) (n : Vec) : Prop :=
  (∃ v, f.normal = some v ∧ 1e-10 ≤ nrm v ∧ n = some v) ∨
  ((∀ v, f.normal = some v → nrm v < 1e-10) ∧ ∃ a b c, m.vertices[f.id 0]? = some a ∧ m.vertices[f.id 1]? = some b ∧ m.vertices[f.id 2]? = some c ∧
    n = some (createNormal a b c))

/-- How many corners of the faces have no normal. -/
def lackingNormals (fs : List Face) : ℕ := (fs.map fun f => (if f.idNormal 0 = noId then 1 else 0) + (if f.idNormal 1 = noId then 1 else 0) +
  (if f.idNormal 2 = noId then 1 else 0)).sum

/-- How many corners of the faces have no colour. -/
def lackingColors (fs : List Face) : ℕ := (fs.map fun f => (if f.idColor 0 = noId then 1 else 0) + (if f.idColor 1 = noId then 1 else 0) +
  (if f.idColor 2 = noId then 1 else 0)).sum

/-! ## Missing normals -/

theorem faceNormal_own {m : Mesh C} {f : Face} {n : Vec} (h : faceNormal m.vertices f = some n) : OwnNormal m f n := by
  unfold faceNormal at h
  have tri : ∀ {x : Option Vec}, (match m.vertices[f.id 0]?, m.vertices[f.id 1]?, m.vertices[f.id 2]? with
      | some v1, some v2, some v3 => some (some (createNormal v1 v2 v3))
      | _, _, _ => (none : Option Vec)) = some n → ∃ a b c, m.vertices[f.id 0]? = some a ∧ m.vertices[f.id 1]? = some b ∧ m.vertices[f.id 2]? = some c ∧
        n = some (createNormal a b c) := by
    intro _ h
    rcases h0 : m.vertices[f.id 0]? with _ | a
    · rw [h0] at h; simp at h
    · rcases h1 : m.vertices[f.id 1]? with _ | b
      · rw [h0, h1] at h; simp at h
      · rcases h2 : m.vertices[f.id 2]? with _ | c
        · rw [h0, h1, h2] at h; simp at h
        · rw [h0, h1, h2] at h
          simp only [Option.some.injEq] at h
          exact ⟨a, b, c, rfl, rfl, rfl, h.symm⟩
  rcases hn : f.normal with _ | v
  · rw [hn] at h
    exact .inr ⟨by simp [hn], tri (x := none) h⟩
  · rw [hn] at h
    dsimp only at h
    by_cases hv : nrm v < 1e-10
    · rw [if_pos hv] at h
      refine .inr ⟨?_, tri (x := none) h⟩
      intro w hw
      rw [hn] at hw
      cases hw
      exact hv
    · rw [if_neg hv] at h
      cases h
      exact .inl ⟨v, hn, not_lt.1 hv, rfl⟩

/-- What `addMissingNormals` makes of a face, `ns` being the list of normals. -/
def Completed (m : Mesh C) (ns : List Vec) (f f' : Face) : Prop :=
  f'.id = f.id ∧ f'.idColor = f.idColor ∧ ∀ c, (f.idNormal c ≠ noId → f'.idNormal c = f.idNormal c) ∧
    (f.idNormal c = noId → f'.idNormal c ≠ noId ∧ ∃ n, OwnNormal m f n ∧ ns[f'.idNormal c]? = some n)

theorem completed_mono {m : Mesh C} {ns ns' : List Vec} {f f' : Face} (h : Completed m ns f f') (hp : ns <+: ns') : Completed m ns' f f' := by
  obtain ⟨h1, h2, h3⟩ := h
  refine ⟨h1, h2, fun c => ⟨(h3 c).1, fun hc => ?_⟩⟩
  obtain ⟨h4, n, h5, h6⟩ := (h3 c).2 hc
  obtain ⟨t, rfl⟩ := hp
  refine ⟨h4, n, h5, ?_⟩
  rw [List.getElem?_append_left (List.getElem?_eq_some_iff.1 h6).1]
  exact h6

theorem missingFace_completed {m : Mesh C} {ns : List Vec} {f : Face} {n : ℕ} {r : List Vec × Face × ℕ} (h : missingFace m.vertices ns f n = some r)
    (h0 : (∃ c, f.idNormal c = noId) → f.idNormal 0 = noId) (room : ns.length + 3 ≤ noId) :
    ns <+: r.1 ∧ r.2.2 = n + (r.1.length - ns.length) ∧ r.1.length = ns.length + lackingNormals [f] ∧ Completed m r.1 f r.2.1 := by
  have hid : ∀ k, k ≤ 2 → u32 (ns.length + k + 1) 1 = ns.length + k := by
    intro k hk
    unfold noId at room
    rw [u32_le (le_refl 1) (by omega) (by omega)]
    omega
  have hno : ∀ k, k ≤ 2 → ns.length + k ≠ noId := by intro k hk; omega
  unfold missingFace at h
  by_cases hall : f.idNormal 0 ≠ noId ∧ f.idNormal 1 ≠ noId ∧ f.idNormal 2 ≠ noId
  · rw [if_pos hall] at h
    cases h
    refine ⟨List.prefix_rfl, by simp, by simp [lackingNormals, hall], rfl, rfl, fun c => ⟨fun _ => rfl, fun hc => ?_⟩⟩
    fin_cases c
    · exact absurd hc hall.1
    · exact absurd hc hall.2.1
    · exact absurd hc hall.2.2
  · rw [if_neg hall] at h
    have hz : f.idNormal 0 = noId := by
      apply h0
      by_contra hne
      exact hall ⟨fun h => hne ⟨0, h⟩, fun h => hne ⟨1, h⟩, fun h => hne ⟨2, h⟩⟩
    rcases hn : faceNormal m.vertices f with _ | nv
    · rw [hn] at h; cases h
    · rw [hn] at h
      have hown := faceNormal_own hn
      simp only [Option.some.injEq] at h
      have i0 := hid 0 (by omega)
      have i1 := hid 1 (by omega)
      have i2 := hid 2 (by omega)
      have k0 := hno 0 (by omega)
      have k1 := hno 1 (by omega)
      have k2 := hno 2 (by omega)
      simp only [add_zero] at i0 k0
      subst h
      by_cases h1 : f.idNormal 1 = noId <;> by_cases h2 : f.idNormal 2 = noId
      all_goals
        simp only [missingFirst, hz, if_true, missingCorner, i0, h1, h2, k0, k1, if_false, Function.update_of_ne (show (1 : Fin 3) ≠ 0 by decide),
          Function.update_of_ne (show (2 : Fin 3) ≠ 0 by decide), Function.update_of_ne (show (2 : Fin 3) ≠ 1 by decide),
          List.length_append, List.length_singleton, i1, i2, List.append_assoc, List.cons_append, List.nil_append, add_assoc, Nat.reduceAdd]
        try simp only [← add_assoc, i1, i2]
        try rw [i2]
        try rw [i1]
        refine ⟨List.prefix_append _ _, by simp <;> omega, by simp [lackingNormals, hz, h1, h2], rfl, rfl, ?_⟩
        intro c
        fin_cases c
        all_goals
          constructor
          all_goals intro hc
          all_goals first
            | exact absurd hz hc
            | exact absurd h1 hc
            | exact absurd h2 hc
            | exact absurd hc h1
            | exact absurd hc h2
            | (simp [Function.update_of_ne]; done)
            | (refine ⟨by simp [k0, k1, k2, i1, i2], nv, hown, by simp [i1, i2]⟩)

theorem missingLoop_completed (m : Mesh C) : ∀ (fs : List Face) (ns : List Vec) (n : ℕ) (r : List Vec × List Face × ℕ),
    missingLoop m.vertices fs ns n = some r → (∀ f ∈ fs, (∃ c, f.idNormal c = noId) → f.idNormal 0 = noId) → ns.length + 3 * fs.length ≤ noId →
    ns <+: r.1 ∧ r.2.2 = n + (r.1.length - ns.length) ∧ r.1.length = ns.length + lackingNormals fs ∧ List.Forall₂ (Completed m r.1) fs r.2.1
  | [], ns, n, r, h, _, _ => by
      rw [missingLoop] at h
      cases h
      exact ⟨List.prefix_rfl, by simp, by simp [lackingNormals], .nil⟩
  | f :: fs, ns, n, r, h, h0, room => by
      simp only [List.length_cons] at room
      rw [missingLoop] at h
      split at h
      · cases h
      · rename_i ns1 f1 n1 e1
        split at h
        · cases h
        · rename_i ns2 fs2 n2 e2
          cases h
          obtain ⟨a1, a2, a3, a4⟩ := missingFace_completed e1 (h0 f (by simp)) (by omega)
          have hle : lackingNormals [f] ≤ 3 := by
            simp only [lackingNormals, List.map_cons, List.map_nil, List.sum_cons, List.sum_nil]
            split <;> split <;> split <;> omega
          dsimp only at a1 a2 a3 a4
          obtain ⟨b1, b2, b3, b4⟩ := missingLoop_completed m fs ns1 n1 _ e2 (fun g hg => h0 g (by simp [hg])) (by omega)
          dsimp only at b1 b2 b3 b4 ⊢
          refine ⟨a1.trans b1, by omega, ?_, .cons (completed_mono a4 b1) b4⟩
          rw [b3, a3]
          simp [lackingNormals]
          omega

/-- Afterwards every corner has a normal: it keeps the one it has, and otherwise gets an entry with the normal of its face; the
number of new entries is returned. Missing: faces whose first corner has a normal and another one has none
(`C124_missing_normals_false`). -/
theorem C124_missing_normals_partial (m : Mesh C) (hv : m.Valid) (h0 : ∀ f ∈ m.faces, (∃ c, f.idNormal c = noId) → f.idNormal 0 = noId)
    (room : m.normals.length + 3 * m.faces.length ≤ noId) : ∃ (m' : Mesh C) (n : ℕ), m.addMissingNormals = .ok (m', n) ∧ m'.vertices = m.vertices ∧
      m.normals <+: m'.normals ∧ m'.normals.length = m.normals.length + n ∧ n = lackingNormals m.faces ∧
      List.Forall₂ (Completed m m'.normals) m.faces m'.faces := by
  obtain ⟨r, hr⟩ := missingLoop_some m.vertices m.faces m.normals 0 hv
  obtain ⟨h1, h2, h3, h4⟩ := missingLoop_completed m _ _ _ _ hr h0 room
  unfold Mesh.addMissingNormals
  rw [hr]
  refine ⟨_, _, rfl, rfl, h1, ?_, ?_, h4⟩
  · dsimp only
    rw [h3, h2, h3]
    omega
  · rw [h2, h3]
    omega

/-- A face whose first corner has a normal stays without the others. -/
theorem C124_missing_normals_false (m : Mesh C) (f : Face) (hf : m.faces = [f]) (h0 : f.idNormal 0 ≠ noId) (h1 : f.idNormal 1 = noId) (r : Mesh C × ℕ)
    (h : m.addMissingNormals = .ok r) : r.1.normals = m.normals ∧ r.2 = 0 ∧ ∃ f', r.1.faces = [f'] ∧ f'.idNormal 1 = noId := by
  unfold Mesh.addMissingNormals at h
  rw [hf] at h
  simp only [missingLoop, missingFace] at h
  rw [if_neg (by simp [h1])] at h
  rcases hn : faceNormal m.vertices f with _ | nv
  · rw [hn] at h; simp at h
  · rw [hn] at h
    have e1 : Function.update f.idNormal 1 noId = f.idNormal := by
      rw [← h1]; exact Function.update_eq_self 1 f.idNormal
    by_cases h2 : f.idNormal 2 = noId
    · have e2 : Function.update f.idNormal 2 noId = f.idNormal := by
        rw [← h2]; exact Function.update_eq_self 2 f.idNormal
      simp only [missingFirst, h0, if_false, missingCorner, h1, if_true, e1, h2, e2] at h
      cases h
      exact ⟨rfl, rfl, _, rfl, h1⟩
    · simp only [missingFirst, h0, if_false, missingCorner, h1, if_true, e1, h2] at h
      cases h
      exact ⟨rfl, rfl, _, rfl, h1⟩

/-! ## Missing colours -/

theorem findColor_some {v x : ℕ} : ∀ {fs : List Face}, findColor v fs = some x → x ≠ noId ∧ ∃ f ∈ fs, ∃ c, f.id c = v ∧ f.idColor c = x
  | [], h => by cases h
  | f :: fs, h => by
      rw [findColor] at h
      split at h
      · rename_i hc; cases h; exact ⟨hc.2, f, by simp, 0, hc.1, rfl⟩
      · split at h
        · rename_i hc; cases h; exact ⟨hc.2, f, by simp, 1, hc.1, rfl⟩
        · split at h
          · rename_i hc; cases h; exact ⟨hc.2, f, by simp, 2, hc.1, rfl⟩
          · obtain ⟨h1, g, hg, h2⟩ := findColor_some h
            exact ⟨h1, g, by simp [hg], h2⟩

theorem findColor_none {v : ℕ} : ∀ {fs : List Face}, findColor v fs = none → ∀ f ∈ fs, ∀ c, f.id c = v → f.idColor c = noId
  | [], _ => by simp
  | f :: fs, h => by
      rw [findColor] at h
      split at h
      · cases h
      · split at h
        · cases h
        · split at h
          · cases h
          · rename_i h1 h2 h3
            intro g hg c hc
            rcases List.mem_cons.1 hg with rfl | hg
            · by_contra hne
              fin_cases c
              · exact h1 ⟨hc, hne⟩
              · exact h2 ⟨hc, hne⟩
              · exact h3 ⟨hc, hne⟩
            · exact findColor_none h g hg c hc

/-- A corner at vertex `v` of a mesh had the colour `x`. -/
def HadColor (fs : List Face) (v x : ℕ) : Prop := x ≠ noId ∧ ∃ f ∈ fs, ∃ c, f.id c = v ∧ f.idColor c = x

/-- What `addMissingColors` makes of a face of the mesh `m`; the colours are `cs` now. -/
def Coloured (m : Mesh C) (color : C) (cs : List C) (f f' : Face) : Prop :=
  f'.id = f.id ∧ f'.idNormal = f.idNormal ∧ f'.normal = f.normal ∧ ∀ c, (f.idColor c ≠ noId → f'.idColor c = f.idColor c) ∧
    (f.idColor c = noId → f'.idColor c ≠ noId → HadColor m.faces (f.id c) (f'.idColor c) ∨
      (¬ (∃ x, HadColor m.faces (f.id c) x) ∧ m.colors.length ≤ f'.idColor c ∧ cs[f'.idColor c]? = some color))

theorem coloured_mono {m : Mesh C} {color : C} {cs cs' : List C} {f f' : Face} (h : Coloured m color cs f f') (hp : cs <+: cs') : Coloured m color cs' f f' := by
  obtain ⟨h1, h2, h3, h4⟩ := h
  refine ⟨h1, h2, h3, fun c => ⟨(h4 c).1, fun a b => ?_⟩⟩
  rcases (h4 c).2 a b with h | ⟨h5, h6, h7⟩
  · exact .inl h
  · obtain ⟨t, rfl⟩ := hp
    refine .inr ⟨h5, h6, ?_⟩
    rw [List.getElem?_append_left (List.getElem?_eq_some_iff.1 h7).1]
    exact h7

/-- The state of the loop over the corners, `k` of which are done. -/
structure ColInv (m : Mesh C) (color : C) (s : Mesh C × ℕ) (k : ℕ) : Prop where
  pre : ∃ j, s.1.colors = m.colors ++ List.replicate j color ∧ j ≤ k
  faces : List.Forall₂ (Coloured m color s.1.colors) m.faces s.1.faces
  count : s.2 + lackingColors s.1.faces = lackingColors m.faces
  vertices : s.1.vertices = m.vertices
  normals : s.1.normals = m.normals

theorem lacking_set : ∀ (fs : List Face) (j : ℕ) (f : Face) (c : Fin 3) (x : ℕ), fs[j]? = some f → f.idColor c = noId → x ≠ noId →
    lackingColors (fs.set j { f with idColor := Function.update f.idColor c x }) + 1 = lackingColors fs
  | [], j, f, c, x, h, _, _ => by simp at h
  | g :: fs, 0, f, c, x, h, hc, hx => by
      simp only [List.getElem?_cons_zero, Option.some.injEq] at h
      subst h
      simp only [List.set_cons_zero, lackingColors, List.map_cons, List.sum_cons]
      fin_cases c
      · have : g.idColor 0 = noId := hc
        simp [this, hx]; omega
      · have : g.idColor 1 = noId := hc
        simp [this, hx]; omega
      · have : g.idColor 2 = noId := hc
        simp [this, hx]; omega
  | g :: fs, j + 1, f, c, x, h, hc, hx => by
      have ih := lacking_set fs j f c x (by simpa using h) hc hx
      simp only [List.set_cons_succ, lackingColors, List.map_cons, List.sum_cons] at ih ⊢
      omega

theorem forall₂_get {α β : Type} {R : α → β → Prop} {l : List α} {l' : List β} (h : List.Forall₂ R l l') {j : ℕ} {b : β} (hb : l'[j]? = some b) :
    ∃ a, l[j]? = some a ∧ R a b := by
  induction h generalizing j with
  | nil => simp at hb
  | cons hr _ ih =>
    rcases j with _ | j
    · simp only [List.getElem?_cons_zero, Option.some.injEq] at hb
      subst hb
      exact ⟨_, by simp, hr⟩
    · exact ih (by simpa using hb)

theorem forall₂_set {α β : Type} {R : α → β → Prop} {l : List α} {l' : List β} (h : List.Forall₂ R l l') {j : ℕ} {a : α} {b : β} (ha : l[j]? = some a) (hr : R a b) :
    List.Forall₂ R l (l'.set j b) := by
  induction h generalizing j with
  | nil => simp at ha
  | cons hr' hl ih =>
    rcases j with _ | j
    · simp only [List.getElem?_cons_zero, Option.some.injEq] at ha
      subst ha
      exact .cons hr hl
    · exact .cons hr' (ih (by simpa using ha))

theorem forall₂_mono {α β : Type} {R R' : α → β → Prop} {l : List α} {l' : List β} (h : List.Forall₂ R l l') (hm : ∀ a b, R a b → R' a b) : List.Forall₂ R' l l' := by
  induction h with
  | nil => exact .nil
  | cons hr _ ih => exact .cons (hm _ _ hr) ih

theorem missingColor_inv {m : Mesh C} {color : C} {s : Mesh C × ℕ} {k : ℕ} (h : ColInv m color s k) (room : m.colors.length + k < noId) (jc : ℕ × Fin 3) :
    ColInv m color (missingColor color s jc) (k + 1) ∧
      (∀ (j : ℕ) (c : Fin 3) (f' : Face), (missingColor color s jc).1.faces[j]? = some f' → (j, c) = jc → f'.idColor c ≠ noId) ∧
      ∀ (j : ℕ) (c : Fin 3) (f f' : Face), s.1.faces[j]? = some f → (missingColor color s jc).1.faces[j]? = some f' → f.idColor c ≠ noId → f'.idColor c ≠ noId := by
  obtain ⟨pre, faces, count, vertices, normals⟩ := h
  obtain ⟨i, hpre, hi⟩ := pre
  unfold missingColor
  rcases hf : s.1.faces[jc.1]? with _ | f
  · refine ⟨⟨⟨i, hpre, by omega⟩, faces, count, vertices, normals⟩, ?_, ?_⟩
    · rintro j c f' h rfl
      dsimp only at h hf
      rw [hf] at h
      cases h
    · intro j c f f' h h' hc
      dsimp only at h'
      rw [h] at h'
      cases h'
      exact hc
  · dsimp only
    by_cases hno : f.idColor jc.2 = noId
    · rw [if_pos hno]
      obtain ⟨f0, hf0, hcol⟩ := forall₂_get faces hf
      obtain ⟨c1, c2, c3, c4⟩ := hcol
      have h0 : f0.idColor jc.2 = noId := by
        by_contra hne
        rw [(c4 jc.2).1 hne] at hno
        exact hne hno
      have hg : ∃ id cs, s.1.getColorId color (f.id jc.2) = ({ s.1 with colors := s.1.colors ++ cs }, id) ∧ (∃ i, cs = List.replicate i color ∧ i ≤ 1) ∧ id ≠ noId ∧
          (HadColor m.faces (f.id jc.2) id ∨ (¬ (∃ x, HadColor m.faces (f.id jc.2) x) ∧ m.colors.length ≤ id ∧ (s.1.colors ++ cs)[id]? = some color)) := by
        unfold Mesh.getColorId
        rcases hfc : findColor (f.id jc.2) s.1.faces with _ | x
        · have hid : u32 (s.1.colors.length + 1) 1 = s.1.colors.length := by
            have : s.1.colors.length = m.colors.length + i := by rw [hpre]; simp
            unfold noId at room
            rw [u32_le (le_refl 1) (by omega) (by omega)]
            omega
          refine ⟨_, [color], rfl, ⟨1, rfl, le_refl _⟩, ?_, .inr ⟨?_, ?_, ?_⟩⟩
          · rw [hid]
            have : s.1.colors.length = m.colors.length + i := by rw [hpre]; simp
            omega
          · rintro ⟨x, hx, g, hg, c, hc1, hc2⟩
            obtain ⟨j, hj⟩ := List.getElem?_of_mem hg
            have hlen := faces.length_eq
            have hjl := (List.getElem?_eq_some_iff.1 hj).1
            have hj' : s.1.faces[j]? = some s.1.faces[j] := List.getElem?_eq_getElem (by omega)
            obtain ⟨g', hg', d1, -, -, d4⟩ := forall₂_get faces hj'
            rw [hj] at hg'
            cases hg'
            have := findColor_none hfc _ (List.mem_of_getElem? hj') c (by rw [d1]; exact hc1)
            rw [(d4 c).1 (by rw [hc2]; exact hx)] at this
            rw [hc2] at this
            exact hx this
          · rw [hid, hpre]
            simp
          · rw [hid]
            simp
        · refine ⟨x, [], by simp, ⟨0, rfl, by omega⟩, (findColor_some hfc).1, ?_⟩
          obtain ⟨hx, g, hg, c, hc1, hc2⟩ := findColor_some hfc
          obtain ⟨j, hj⟩ := List.getElem?_of_mem hg
          obtain ⟨g0, hg0, d1, -, -, d4⟩ := forall₂_get faces hj
          by_cases hd : g0.idColor c = noId
          · rcases (d4 c).2 hd (by rw [hc2]; exact hx) with h | h
            · left
              rw [← hc1, d1, ← hc2]
              exact h
            · right
              rw [← hc1, d1, ← hc2]
              simpa using h
          · left
            refine ⟨hx, g0, List.mem_of_getElem? hg0, c, by rw [← d1]; exact hc1, ?_⟩
            rw [← (d4 c).1 hd]; exact hc2
      obtain ⟨id, cs, e, ⟨i', hcs, hi'⟩, hidn, hgood⟩ := hg
      rw [e]
      dsimp only
      refine ⟨⟨⟨i + i', ?_, by omega⟩, ?_, ?_, vertices, normals⟩, ?_, ?_⟩
      · rw [hpre, hcs, List.append_assoc, List.replicate_append_replicate]
      · refine forall₂_set (forall₂_mono faces fun a b h => coloured_mono h (List.prefix_append _ cs)) hf0 ⟨c1, c2, c3, fun c => ?_⟩
        by_cases hc : c = jc.2
        · subst hc
          dsimp only
          rw [Function.update_self]
          refine ⟨fun h => absurd h0 h, fun _ _ => ?_⟩
          rw [← c1]
          exact hgood
        · dsimp only
          rw [Function.update_of_ne hc]
          exact (coloured_mono ⟨c1, c2, c3, c4⟩ (List.prefix_append _ cs)).2.2.2 c
      · have := lacking_set s.1.faces jc.1 f jc.2 id hf hno hidn
        dsimp only
        omega
      · rintro j c f' h rfl
        have hlt := (List.getElem?_eq_some_iff.1 hf).1
        rw [List.getElem?_set, if_pos rfl, if_pos hlt] at h
        cases h
        dsimp only
        rw [Function.update_self]
        exact hidn
      · intro j c g f' hg h hc
        rw [List.getElem?_set] at h
        by_cases hj : jc.1 = j
        · subst hj
          rw [if_pos rfl, if_pos (List.getElem?_eq_some_iff.1 hf).1] at h
          rw [hf] at hg
          cases hg
          cases h
          dsimp only
          by_cases hcc : c = jc.2
          · subst hcc; exact absurd hno hc
          · rw [Function.update_of_ne hcc]; exact hc
        · rw [if_neg hj, hg] at h
          cases h
          exact hc
    · rw [if_neg hno]
      refine ⟨⟨⟨i, hpre, by omega⟩, faces, count, vertices, normals⟩, ?_, ?_⟩
      · rintro j c f' h rfl
        dsimp only at h hf
        rw [hf] at h
        cases h
        exact hno
      · intro j c g f' h h' hc
        rw [h] at h'
        cases h'
        exact hc

theorem missingColors_inv {m : Mesh C} {color : C} : ∀ (l : List (ℕ × Fin 3)) (s : Mesh C × ℕ) (k : ℕ), ColInv m color s k → m.colors.length + k + l.length < noId →
    ColInv m color (l.foldl (missingColor color) s) (k + l.length) ∧
      (∀ (j : ℕ) (c : Fin 3) (f' : Face), (l.foldl (missingColor color) s).1.faces[j]? = some f' → (j, c) ∈ l → f'.idColor c ≠ noId) ∧
      ∀ (j : ℕ) (c : Fin 3) (f f' : Face), s.1.faces[j]? = some f → (l.foldl (missingColor color) s).1.faces[j]? = some f' → f.idColor c ≠ noId → f'.idColor c ≠ noId
  | [], s, k, h, _ => ⟨h, by simp, by intro j c f f' h1 h2 hc; simp only [List.foldl_nil] at h2; rw [h1] at h2; cases h2; exact hc⟩
  | jc :: l, s, k, h, room => by
      simp only [List.length_cons] at room
      obtain ⟨a1, a2, a3⟩ := missingColor_inv h (by omega) jc
      obtain ⟨b1, b2, b3⟩ := missingColors_inv l _ (k + 1) a1 (by omega)
      have hlen := a1.faces.length_eq
      have hlen' := b1.faces.length_eq
      have hlen0 := h.faces.length_eq
      refine ⟨?_, ?_, ?_⟩
      · rw [List.length_cons, List.foldl_cons, Nat.add_comm l.length 1, ← Nat.add_assoc]
        exact b1
      · intro j c f' hf hm
        rw [List.foldl_cons] at hf
        rcases List.mem_cons.1 hm with hm | hm
        · have hj : j < (missingColor color s jc).1.faces.length := by
            have := (List.getElem?_eq_some_iff.1 hf).1
            omega
          have hg := List.getElem?_eq_getElem hj
          exact b3 j c _ f' hg hf (a2 j c _ hg hm)
        · exact b2 j c f' hf hm
      · intro j c f f' hf hf' hc
        rw [List.foldl_cons] at hf'
        have hj : j < (missingColor color s jc).1.faces.length := by
          have := (List.getElem?_eq_some_iff.1 hf).1
          omega
        have hg := List.getElem?_eq_getElem hj
        exact b3 j c _ f' hg hf' (a3 j c f _ hf hg hc)

/-- The colours are completed in the merged mesh: afterwards every corner has a colour, it keeps the one it had, a corner without
one gets the colour of a corner at the same vertex if there is one and otherwise the given colour. The number returned is the number
of corners that had no colour. -/
theorem C124_missing_colors (m m1 : Mesh C) (search : ℕ → List ℕ) (color : C) (h : m.mergeVertices search true = .ok m1)
    (room : m1.colors.length + 3 * m1.faces.length < noId) : ∃ (m' : Mesh C) (n : ℕ), m.addMissingColors search color = .ok (m', n) ∧
      m'.vertices = m1.vertices ∧ m'.normals = m1.normals ∧ n = lackingColors m1.faces ∧ (∃ k, m'.colors = m1.colors ++ List.replicate k color) ∧
      (∀ f ∈ m'.faces, ∀ c, f.idColor c ≠ noId) ∧ List.Forall₂ (Coloured m1 color m'.colors) m1.faces m'.faces := by
  have h0 : ColInv m1 color (m1, 0) 0 := by
    refine ⟨⟨0, by simp, le_refl _⟩, ?_, by simp, rfl, rfl⟩
    have : ∀ (fs : List Face), (∀ f ∈ fs, f ∈ m1.faces) → List.Forall₂ (Coloured m1 color m1.colors) fs fs := by
      intro fs
      induction fs with
      | nil => intro _; exact .nil
      | cons f fs ih =>
        intro hfs
        exact .cons ⟨rfl, rfl, rfl, fun c => ⟨fun _ => rfl, fun a b => absurd a b⟩⟩ (ih fun g hg => hfs g (by simp [hg]))
    exact this m1.faces fun f hf => hf
  have hl : ((List.range m1.faces.length).flatMap fun j => [(j, (0 : Fin 3)), (j, 1), (j, 2)]).length = 3 * m1.faces.length := by
    simp [List.length_flatMap]; omega
  obtain ⟨a1, a2, -⟩ := missingColors_inv _ (m1, 0) 0 h0 (by rw [hl]; simpa using room)
  unfold Mesh.addMissingColors
  rw [h]
  have hall : ∀ f ∈ (m1.missingColors color).1.faces, ∀ c, f.idColor c ≠ noId := by
    intro f hf c
    obtain ⟨j, hj⟩ := List.getElem?_of_mem hf
    refine a2 j c f hj ?_
    have hlen := a1.faces.length_eq
    have hjl := (List.getElem?_eq_some_iff.1 hj).1
    unfold Mesh.missingColors at hjl
    rw [List.mem_flatMap]
    refine ⟨j, List.mem_range.2 (by omega), ?_⟩
    fin_cases c <;> simp
  refine ⟨_, _, rfl, a1.vertices, a1.normals, ?_, ?_, hall, a1.faces⟩
  · have hz : lackingColors (m1.missingColors color).1.faces = 0 := by
      revert hall
      generalize (m1.missingColors color).1.faces = fs
      intro hall
      induction fs with
      | nil => rfl
      | cons f fs ih =>
        have := ih fun g hg => hall g (by simp [hg])
        simp only [lackingColors, List.map_cons, List.sum_cons] at this ⊢
        rw [this, if_neg (hall f (by simp) 0), if_neg (hall f (by simp) 1), if_neg (hall f (by simp) 2)]
    have := a1.count
    unfold Mesh.missingColors at hz
    omega
  · obtain ⟨k, hk, -⟩ := a1.pre
    exact ⟨k, hk⟩

/-- The number returned is not, as documented, the number of new colours: for two faces with the same corners six corners get a
colour, and there are three new ones. -/
theorem C124_color_count_false : ∃ (m : Mesh ℕ), m.colors = [] ∧ (m.missingColors 7).1.colors = [7, 7, 7] ∧ (m.missingColors 7).2 = 6 := by
  let f : Face := { Face.new none with id := ![0, 1, 2] }
  exact ⟨⟨[], [0, 1, 2], [], [f, f], BBox.clear⟩, rfl, by decide +kernel, by decide +kernel⟩

/-! ## Flipping -/

/-- Flipping all faces reverses the corners of every triangle and the normals; doing it twice changes nothing. -/
theorem C124_flip (m : Mesh C) : m.flipVertexOrientations.flipVertexOrientations = m ∧
    m.flipVertexOrientations.triangles = m.triangles.map (fun t => ![t 2, t 1, t 0]) ∧
    m.flipVertexOrientations.faces.map Face.normal = m.faces.map (fun f => f.normal.map fun n => -n) := by
  refine ⟨?_, ?_, ?_⟩
  · obtain ⟨a, b, c, fs, e⟩ := m
    unfold Mesh.flipVertexOrientations
    simp only [List.map_map]
    congr 1
    conv_rhs => rw [← List.map_id fs]
    apply List.map_congr_left
    rintro ⟨i, j, k, n⟩ -
    simp only [Function.comp, Face.flipOrientation, id]
    congr 1
    · funext x; fin_cases x <;> rfl
    · rcases n with _ | n
      · rfl
      · simp
  · unfold Mesh.triangles Mesh.flipVertexOrientations
    simp only [List.map_map]
    apply List.map_congr_left
    intro f _
    funext x
    fin_cases x <;> rfl
  · unfold Mesh.flipVertexOrientations
    simp only [List.map_map]
    apply List.map_congr_left
    intro f _
    simp [Face.flipOrientation]

/-- The colours and normals of the corners are not reversed: a flipped triangle has the colours of its first and its last corner
exchanged. -/
theorem C124_flip_false : ∃ (m : Mesh ℕ) (f f' : Face), Reach m ∧ m.faces = [f] ∧ m.flipVertexOrientations.faces = [f'] ∧
    m.vertices[f.id 0]? = m.flipVertexOrientations.vertices[f'.id 2]? ∧ m.colors[f.idColor 0]? = some 1 ∧ m.flipVertexOrientations.colors[f'.idColor 2]? = some 3 := by
  let m : Mesh ℕ := (Mesh.empty : Mesh ℕ).addTriangleWithFace (some 0) (some 1) (some 2) none 1 2 3
  have hf : m.faces = [⟨![0, 1, 2], ![0, 1, 2], fun _ => noId, givenNormal none 0 1 2⟩] := by
    simp only [m, addTriangle_faces, Mesh.empty]
    rfl
  have hc : m.colors = [1, 2, 3] := by
    simp only [m, addTriangle_colors, Mesh.empty]
    rfl
  refine ⟨m, _, Face.flipOrientation ⟨![0, 1, 2], ![0, 1, 2], fun _ => noId, givenNormal none 0 1 2⟩,
    .step .empty (.triangle _ _ _ _ _ _ _ (by simp [Mesh.empty])), hf, ?_, ?_, ?_, ?_⟩
  · unfold Mesh.flipVertexOrientations
    rw [hf]
    rfl
  · rfl
  · rw [hc]; rfl
  · show m.colors[_]? = _
    rw [hc]; rfl

/-! ## Moving the surface -/

/-- The position of a vertex. -/
noncomputable def Mesh.pos (m : Mesh C) (v : ℕ) : V3 := m.vertices[v]?.getD 0

/-- What a corner adds to the normal of its vertex: its normal, of length one, times the angle of the triangle at the corner. -/
noncomputable def cornerShare (m : Mesh C) (f : Face) (c : Fin 3) : V3 :=
  match cornerNormal m.normals f c with
  | none => 0
  | some n =>
      let u := m.pos (f.id (c + 1)) - m.pos (f.id c)
      let v := m.pos (f.id (c + 2)) - m.pos (f.id c)
      Real.arccos ((u ⬝ᵥ v) / (nrm u * nrm v)) • Rot.normalize n

/-- The sum over all corners at a vertex. -/
noncomputable def vertexSum (m : Mesh C) (fs : List Face) (v : ℕ) : V3 :=
  (fs.map fun f => (if f.id 0 = v then cornerShare m f 0 else 0) + (if f.id 1 = v then cornerShare m f 1 else 0) +
    (if f.id 2 = v then cornerShare m f 2 else 0)).sum

/-- The sides of the triangles are not of length zero. -/
def Sides (m : Mesh C) (f : Face) : Prop := ∀ c, m.pos (f.id (c + 1)) ≠ m.pos (f.id c)

theorem nrm_ne_zero {v : V3} (h : v ≠ 0) : nrm v ≠ 0 := fun h0 => h (Rot.nrm_eq_zero.1 h0)

theorem nrm_neg_sub (a b : V3) : -a + b = b - a := by abel

theorem getAngle_eq (u v : V3) : Mth.getAngleVec u v = Real.arccos ((u ⬝ᵥ v) / (nrm u * nrm v)) := by
  unfold Mth.getAngleVec
  dsimp only
  by_cases h1 : u ⬝ᵥ v / (nrm u * nrm v) < -1
  · rw [if_pos h1, if_neg (by norm_num), Real.arccos_neg_one, Real.arccos_of_le_neg_one (le_of_lt h1)]
  · rw [if_neg h1]
    by_cases h2 : u ⬝ᵥ v / (nrm u * nrm v) > 1
    · rw [if_pos h2, Real.arccos_one, Real.arccos_eq_zero.2 (le_of_lt h2)]
    · rw [if_neg h2]

theorem cornerWeight_eq (m : Mesh C) (f : Face) (c d e : Fin 3) (hd : m.pos (f.id d) - m.pos (f.id c) ≠ 0) (he : m.pos (f.id e) - m.pos (f.id c) ≠ 0)
    (hde : (d = c + 1 ∧ e = c + 2) ∨ (d = c + 2 ∧ e = c + 1)) (avg : ℕ → Vec) (h : avg (f.id c) ≠ none) (i : ℕ) :
    addAt avg (f.id c) (cornerWeight (cornerNormal m.normals f c) (m.pos (f.id c)) (m.pos (f.id d)) (m.pos (f.id e))) i =
      (avg i).map fun x => x + if f.id c = i then cornerShare m f c else 0 := by
  have hsh : ∀ n, cornerNormal m.normals f c = some n → cornerShare m f c =
      Real.arccos (((m.pos (f.id d) - m.pos (f.id c)) ⬝ᵥ (m.pos (f.id e) - m.pos (f.id c))) /
        (nrm (m.pos (f.id d) - m.pos (f.id c)) * nrm (m.pos (f.id e) - m.pos (f.id c)))) • Rot.normalize n := by
    intro n hn
    unfold cornerShare
    rw [hn]
    rcases hde with ⟨rfl, rfl⟩ | ⟨rfl, rfl⟩
    · rfl
    · dsimp only
      rw [dotProduct_comm, mul_comm (nrm _)]
  unfold cornerWeight
  rcases hn : cornerNormal m.normals f c with _ | n
  · have : cornerShare m f c = 0 := by unfold cornerShare; rw [hn]
    rw [this]
    simp [addAt]
  · dsimp only
    by_cases hp : nrm n > 0
    · rw [if_pos hp]
      unfold addAt angle
      rw [nrm_neg_sub, nrm_neg_sub, if_neg (mul_ne_zero (nrm_ne_zero hd) (nrm_ne_zero he)), getAngle_eq, hsh n hn]
      simp only [Option.map_some]
      by_cases hi : i = f.id c
      · subst hi
        rw [if_pos rfl, if_pos rfl]
        rcases ha : avg (f.id c) with _ | x
        · exact absurd ha h
        · rfl
      · rw [if_neg hi, if_neg (fun h => hi h.symm)]
        simp
    · rw [if_neg hp]
      have hz : cornerShare m f c = 0 := by
        rw [hsh n hn]
        have : n = 0 := by
          by_contra hne
          have h0 := nrm_ne_zero hne
          have : 0 ≤ nrm n := Real.sqrt_nonneg _
          exact hp (lt_of_le_of_ne this (Ne.symm h0))
        rw [this]
        simp [Rot.normalize]
      rw [hz]
      simp [addAt]

theorem averageLoop_eq (m : Mesh C) : ∀ (fs : List Face) (avg : ℕ → V3), (∀ f ∈ fs, ∀ c, f.id c < m.vertices.length) → (∀ f ∈ fs, Sides m f) →
    averageLoop m.vertices m.normals fs (fun i => some (avg i)) = some fun i => some (avg i + vertexSum m fs i)
  | [], avg, _, _ => by simp [averageLoop, vertexSum]
  | f :: fs, avg, hv, hs => by
      have h' := hv f (by simp)
      have hp : ∀ c, m.vertices[f.id c]? = some (m.pos (f.id c)) := by
        intro c
        unfold Mesh.pos
        rw [List.getElem?_eq_getElem (h' c)]
        rfl
      have side := hs f (by simp)
      have s01 : m.pos (f.id 1) ≠ m.pos (f.id 0) := side 0
      have s12 : m.pos (f.id 2) ≠ m.pos (f.id 1) := side 1
      have s20 : m.pos (f.id 0) ≠ m.pos (f.id 2) := side 2
      rw [averageLoop, hp 0, hp 1, hp 2]
      dsimp only
      have e0 : addAt (fun i => some (avg i)) (f.id 0) (cornerWeight (cornerNormal m.normals f 0) (m.pos (f.id 0)) (m.pos (f.id 1)) (m.pos (f.id 2))) =
          fun i => some (avg i + if f.id 0 = i then cornerShare m f 0 else 0) := by
        funext i
        exact cornerWeight_eq m f 0 1 2 (sub_ne_zero.2 s01) (sub_ne_zero.2 s20.symm) (.inl ⟨rfl, rfl⟩) _ (by simp) i
      rw [e0]
      have e1 : addAt (fun i => some (avg i + if f.id 0 = i then cornerShare m f 0 else 0)) (f.id 1)
          (cornerWeight (cornerNormal m.normals f 1) (m.pos (f.id 1)) (m.pos (f.id 0)) (m.pos (f.id 2))) =
          fun i => some (avg i + (if f.id 0 = i then cornerShare m f 0 else 0) + if f.id 1 = i then cornerShare m f 1 else 0) := by
        funext i
        exact cornerWeight_eq m f 1 0 2 (sub_ne_zero.2 s01.symm) (sub_ne_zero.2 s12) (.inr ⟨rfl, rfl⟩) _ (by simp) i
      rw [e1]
      have e2 : addAt (fun i => some (avg i + (if f.id 0 = i then cornerShare m f 0 else 0) + if f.id 1 = i then cornerShare m f 1 else 0)) (f.id 2)
          (cornerWeight (cornerNormal m.normals f 2) (m.pos (f.id 2)) (m.pos (f.id 1)) (m.pos (f.id 0))) =
          fun i => some (avg i + (if f.id 0 = i then cornerShare m f 0 else 0) + (if f.id 1 = i then cornerShare m f 1 else 0) +
            if f.id 2 = i then cornerShare m f 2 else 0) := by
        funext i
        exact cornerWeight_eq m f 2 1 0 (sub_ne_zero.2 s12.symm) (sub_ne_zero.2 s20) (.inr ⟨rfl, rfl⟩) _ (by simp) i
      rw [e2, averageLoop_eq m fs _ (fun g hg => hv g (by simp [hg])) fun g hg => hs g (by simp [hg])]
      congr 1
      funext i
      congr 1
      simp only [vertexSum, List.map_cons, List.sum_cons]
      abel

theorem storeNormals_spec (avg : ℕ → Vec) : ∀ (fs : List Face) (ns : List Vec), ns.length + 3 * fs.length ≤ 2 ^ 32 →
    ns <+: (storeNormals avg fs ns).1 ∧ List.Forall₂ (fun f f' => f'.id = f.id ∧ f'.idColor = f.idColor ∧ f'.normal = f.normal ∧
      ∀ c, (storeNormals avg fs ns).1[f'.idNormal c]? = some (avg (f.id c))) fs (storeNormals avg fs ns).2
  | [], ns, _ => ⟨List.prefix_rfl, .nil⟩
  | f :: fs, ns, h => by
      simp only [List.length_cons] at h
      obtain ⟨h1, h2⟩ := storeNormals_spec avg fs (ns ++ [avg (f.id 0), avg (f.id 1), avg (f.id 2)]) (by simp; omega)
      rw [storeNormals]
      dsimp only
      refine ⟨(List.prefix_append _ _).trans h1, .cons ⟨rfl, rfl, rfl, ?_⟩ h2⟩
      intro c
      have e1 : u32 (ns.length + 1) 1 = ns.length := by rw [u32_le (le_refl 1) (by omega) (by omega)]; omega
      have e2 : u32 (ns.length + 2) 1 = ns.length + 1 := by rw [u32_le (le_refl 1) (by omega) (by omega)]; omega
      have e3 : u32 (ns.length + 3) 1 = ns.length + 2 := by rw [u32_le (le_refl 1) (by omega) (by omega)]; omega
      obtain ⟨t, ht⟩ := h1
      rw [← ht]
      dsimp only
      rw [e1, e2, e3]
      fin_cases c <;> simp

/-- Fattening a mesh whose triangles have three different corners: every vertex moves by the offset along the sum of the normals of
its corners weighted with the angles, and stays if that sum is zero; faces, colours and normals stay. With `updateNormals` every corner
gets the direction of the sum of its vertex as its normal. Missing: triangles with corners at the same place
(`C124_fatten_nan_false`). -/
theorem C124_fatten_partial (m : Mesh C) (hv : m.Valid) (hs : ∀ f ∈ m.faces, Sides m f) (offset : ℝ) (b : Bool) (room : 3 * m.faces.length ≤ 2 ^ 32) :
    ∃ m', m.fattenShrink offset b = .ok m' ∧ m'.vertices.length = m.vertices.length ∧
      (∀ i p, m.vertices[i]? = some p → m'.vertices[i]? = some (p + offset • Rot.normalize (vertexSum m m.faces i))) ∧
      m'.colors = m.colors ∧ (b = false → m'.faces = m.faces ∧ m'.normals = m.normals) ∧
      (b = true → List.Forall₂ (fun f f' => f'.id = f.id ∧ f'.idColor = f.idColor ∧ f'.normal = f.normal ∧
        ∀ c, m'.normals[f'.idNormal c]? = some (some (Rot.normalize (vertexSum m m.faces (f.id c))))) m.faces m'.faces) := by
  have ha := averageLoop_eq m m.faces (fun _ => 0) hv hs
  simp only [zero_add] at ha
  unfold Mesh.fattenShrink
  rw [ha]
  dsimp only
  have hpos : ∀ i p, m.vertices[i]? = some p →
      (m.vertices.mapIdx fun i p => moveVertex offset (Option.map Rot.normalize (some (vertexSum m m.faces i))) p)[i]? =
        some (p + offset • Rot.normalize (vertexSum m m.faces i)) := by
    intro i p hp
    rw [List.getElem?_mapIdx, hp]
    simp only [Option.map_some, moveVertex]
    congr 1
    by_cases h : nrm (Rot.normalize (vertexSum m m.faces i)) > 0
    · rw [if_pos h]
    · rw [if_neg h]
      have : Rot.normalize (vertexSum m m.faces i) = 0 := by
        by_contra hne
        have h0 := nrm_ne_zero hne
        have : 0 ≤ nrm (Rot.normalize (vertexSum m m.faces i)) := Real.sqrt_nonneg _
        exact h (lt_of_le_of_ne this (Ne.symm h0))
      rw [this]
      simp
  rcases b with _ | _
  · exact ⟨_, rfl, by simp, hpos, rfl, fun _ => ⟨rfl, rfl⟩, by simp⟩
  · refine ⟨_, rfl, by simp, hpos, rfl, by simp, fun _ => ?_⟩
    exact (storeNormals_spec (fun i => Option.map Rot.normalize (some (vertexSum m m.faces i))) m.faces [] (by simpa using room)).2

theorem addAt_none (avg : ℕ → Vec) (v i : ℕ) (w : Option Vec) (h : avg i = none) : addAt avg v w i = none := by
  rcases w with _ | w
  · exact h
  · unfold addAt
    dsimp only
    by_cases hi : i = v
    · rw [if_pos hi, h]; rfl
    · rw [if_neg hi]; exact h

theorem averageLoop_none (vs : List V3) (ns : List Vec) (i : ℕ) : ∀ (fs : List Face) (avg r : ℕ → Vec), avg i = none → averageLoop vs ns fs avg = some r → r i = none
  | [], avg, r, h, e => by cases e; exact h
  | f :: fs, avg, r, h, e => by
      rw [averageLoop] at e
      split at e
      · exact averageLoop_none vs ns i fs _ r (addAt_none _ _ _ _ (addAt_none _ _ _ _ (addAt_none _ _ _ _ h))) e
      · cases e

/-- If the first two corners of a triangle are at the same place, and the triangle has a normal, the new normal of these corners is
NaN. Merging vertices, with which smoothing starts, makes such triangles. -/
theorem C124_fatten_nan_false (m m' : Mesh C) (f : Face) (hf : f ∈ m.faces) (hp : m.pos (f.id 1) = m.pos (f.id 0)) (n : V3)
    (hn : cornerNormal m.normals f 0 = some n) (hn0 : n ≠ 0) (offset : ℝ) (h : m.fattenShrink offset true = .ok m') : none ∈ m'.normals := by
  unfold Mesh.fattenShrink at h
  rcases ha : averageLoop m.vertices m.normals m.faces (fun _ => some 0) with _ | r
  · rw [ha] at h; cases h
  · rw [ha] at h
    have key : ∀ (fs : List Face) (avg r : ℕ → Vec), f ∈ fs → averageLoop m.vertices m.normals fs avg = some r → r (f.id 0) = none := by
      intro fs
      induction fs with
      | nil => intro _ _ h; simp at h
      | cons g fs ih =>
        intro avg r hm e
        rw [averageLoop] at e
        split at e
        · rename_i p1 p2 p3 h1 h2 h3
          rcases List.mem_cons.1 hm with rfl | hm
          · refine averageLoop_none _ _ _ fs _ r (addAt_none _ _ _ _ (addAt_none _ _ _ _ ?_)) e
            have hpp : p2 = p1 := by
              unfold Mesh.pos at hp
              rw [h1, h2] at hp
              exact hp
            unfold cornerWeight
            rw [hn]
            dsimp only
            have hpos : nrm n > 0 := lt_of_le_of_ne (Real.sqrt_nonneg _) (Ne.symm (nrm_ne_zero hn0))
            rw [if_pos hpos]
            have hz : nrm (-p1 + p2) * nrm (-p1 + p3) = 0 := by
              rw [hpp]
              simp [nrm]
            unfold angle
            rw [if_pos hz]
            simp only [addAt, if_true, Option.map_none]
            rcases avg (f.id 0) with _ | x <;> rfl
          · exact ih _ r hm e
        · cases e
    have hr := key m.faces _ r hf ha
    have st : ∀ (a : ℕ → Vec) (fs : List Face) (ns : List Vec), (∀ x ∈ ns, x ∈ (storeNormals a fs ns).1) ∧ (∀ g ∈ fs, ∀ c, a (g.id c) ∈ (storeNormals a fs ns).1) := by
      intro a fs
      induction fs with
      | nil => intro ns; exact ⟨fun x hx => hx, by simp⟩
      | cons g fs ih =>
        intro ns
        rw [storeNormals]
        dsimp only
        obtain ⟨i1, i2⟩ := ih (ns ++ [a (g.id 0), a (g.id 1), a (g.id 2)])
        refine ⟨fun x hx => i1 x (by simp [hx]), fun g' hg' c => ?_⟩
        rcases List.mem_cons.1 hg' with rfl | hg'
        · apply i1
          fin_cases c <;> simp
        · exact i2 g' hg' c
    simp only [if_true] at h
    cases h
    have := (st (fun i => Option.map Rot.normalize (r i)) m.faces []).2 f hf 0
    rw [hr] at this
    exact this

/-! ## The hypotheses can be met -/

/-- A triangle without normals. -/
noncomputable def bare : Mesh ℕ := ⟨[], [0, ![1, 0, 0], ![0, 1, 0]], [5], [⟨![0, 1, 2], ![noId, 0, noId], fun _ => noId, none⟩], BBox.clear⟩

theorem bare_valid : bare.Valid := by
  intro f hf c
  simp only [bare, List.mem_singleton] at hf
  subst hf
  fin_cases c <;> simp [bare]

example : bare.Valid ∧ (∀ f ∈ bare.faces, (∃ c, f.idNormal c = noId) → f.idNormal 0 = noId) ∧ bare.normals.length + 3 * bare.faces.length ≤ noId ∧
    lackingNormals bare.faces = 3 ∧ (∀ f ∈ bare.faces, Sides bare f) ∧ 3 * bare.faces.length ≤ 2 ^ 32 := by
  refine ⟨bare_valid, ?_, ?_, ?_, ?_, ?_⟩
  · intro f hf _
    simp only [bare, List.mem_singleton] at hf
    subst hf
    rfl
  · simp only [bare, List.length_nil, List.length_singleton, noId]; omega
  · simp [bare, lackingNormals]
  · intro f hf c h
    simp only [bare, List.mem_singleton] at hf
    subst hf
    fin_cases c
    · have := congrFun h 0
      simp [bare, Mesh.pos] at this
    · have := congrFun h 0
      simp [bare, Mesh.pos] at this
    · have := congrFun h 1
      simp [bare, Mesh.pos] at this
  · simp only [bare, List.length_singleton]; omega

example : ∃ m1, bare.mergeVertices (fun i => [i]) true = .ok m1 ∧ m1.colors.length + 3 * m1.faces.length < noId := by
  obtain ⟨m1, g, h1, h2, -, -, -, h3, -⟩ := merge_result bare bare_valid (fun i => [i]) true
  refine ⟨m1, h1, ?_⟩
  rw [h2, h3]
  simp only [bare, List.length_singleton, List.length_map, noId]
  omega

/-- A triangle with two corners at the same place. -/
noncomputable def collapsed : Mesh ℕ := ⟨[some ![0, 0, 1]], [0, ![1, 0, 0]], [], [⟨![0, 0, 1], fun _ => noId, fun _ => 0, none⟩], BBox.clear⟩

example : ∃ m' f, f ∈ collapsed.faces ∧ collapsed.pos (f.id 1) = collapsed.pos (f.id 0) ∧ cornerNormal collapsed.normals f 0 = some (![0, 0, 1] : V3) ∧
    (![0, 0, 1] : V3) ≠ 0 ∧ collapsed.fattenShrink 1 true = .ok m' := by
  have hv : collapsed.Valid := by
    intro f hf c
    simp only [collapsed, List.mem_singleton] at hf
    subst hf
    fin_cases c <;> simp [collapsed]
  obtain ⟨m', h, -⟩ := fatten_ok collapsed hv 1 true
  refine ⟨m', _, by simp [collapsed]; rfl, rfl, rfl, ?_, h⟩
  intro h
  have := congrFun h 2
  simp at this

end Simox.Msh
