import Verif.Stl.Spec

/-!
# Lemmas about STL files
-/

namespace Simox.Stl

section
variable {V : Type} [DecidableEq V]

/-- The map agrees with the vertices, which from the index `k` on are all different and all in the map. -/
structure Welded (k : ℕ) (w : Weld V) : Prop where
  map : ∀ v h, w.seen.lookup v = some h → w.mesh.vertices[h]? = some v
  len : k ≤ w.mesh.vertices.length
  nodup : (w.mesh.vertices.drop k).Nodup
  all : ∀ v, v ∈ w.mesh.vertices.drop k ↔ (w.seen.lookup v).isSome

/-- `w'` has the faces and normals of `w`, and maybe more vertices. -/
def Grown (w w' : Weld V) : Prop := w'.mesh.faces = w.mesh.faces ∧ w'.mesh.normals = w.mesh.normals ∧ w.mesh.vertices <+: w'.mesh.vertices ∧ ∀ v h, w.seen.lookup v = some h → w'.seen.lookup v = some h

theorem lookup_append_some {l l' : List (V × ℕ)} {v : V} {h : ℕ} (hl : l.lookup v = some h) : (l ++ l').lookup v = some h := by
  rw [List.lookup_append, hl]
  rfl

theorem handle_spec {k : ℕ} {w : Weld V} (hw : Welded k w) (v : V) :
    Welded k (w.handle v).1 ∧ Grown w (w.handle v).1 ∧ (w.handle v).1.seen.lookup v = some (w.handle v).2 ∧ (∀ u, (u ∈ (w.handle v).1.mesh.vertices.drop k) ↔ u ∈ w.mesh.vertices.drop k ∨ u = v) := by
  unfold Weld.handle
  rcases hl : w.seen.lookup v with _ | h
  · have hnew : v ∉ w.mesh.vertices.drop k := by
      rw [hw.all, hl]
      simp
    have hdrop : (w.mesh.vertices ++ [v]).drop k = w.mesh.vertices.drop k ++ [v] := List.drop_append_of_le_length hw.len
    have hlook : ∀ u, (w.seen ++ [(v, w.mesh.vertices.length)]).lookup u = if u = v then some w.mesh.vertices.length else w.seen.lookup u := by
      intro u
      rw [List.lookup_append]
      split_ifs with hu
      · subst hu
        rw [hl]
        simp
      · rcases w.seen.lookup u with _ | x
        · have hu' : (u == v) = false := by simpa using hu
          simp [List.lookup, hu']
        · rfl
    refine ⟨⟨?_, ?_, ?_, ?_⟩, ⟨rfl, rfl, List.prefix_append _ _, ?_⟩, ?_, ?_⟩
    · intro u h hu
      simp only [hlook] at hu
      split_ifs at hu with huv
      · cases hu
        subst huv
        simp
      · have := hw.map u h hu
        rw [List.getElem?_append_left]
        · exact this
        · exact (List.getElem?_eq_some_iff.1 this).1
    · have := hw.len
      simp
      omega
    · simp only [hdrop]
      rw [List.nodup_append]
      refine ⟨hw.nodup, by simp, ?_⟩
      intro a ha b hb hab
      rw [List.mem_singleton] at hb
      subst hb
      subst hab
      exact hnew ha
    · intro u
      simp only [hdrop, List.mem_append, List.mem_singleton, hlook, hw.all]
      split_ifs with hu
      · simp [hu]
      · simp [hu]
    · intro u h hu
      exact lookup_append_some hu
    · simp [hlook]
    · intro u
      simp only [hdrop, List.mem_append, List.mem_singleton]
  · refine ⟨hw, ⟨rfl, rfl, List.prefix_rfl, fun _ _ h => h⟩, hl, ?_⟩
    intro u
    constructor
    · exact .inl
    · rintro (h' | rfl)
      · exact h'
      · rw [hw.all, hl]
        rfl

omit [DecidableEq V] in
theorem isFace_grow {m m' : Mesh V} (h1 : m.vertices <+: m'.vertices) (h2 : m.normals <+: m'.normals) {f : Face} {t : Tri V} (h : IsFace m f t) : IsFace m' f t := by
  have key : ∀ {l l' : List V} {i : ℕ} {x : V}, l <+: l' → l[i]? = some x → l'[i]? = some x := by
    intro l l' i x hl hx
    obtain ⟨r, rfl⟩ := hl
    rw [List.getElem?_append_left]
    · exact hx
    · exact (List.getElem?_eq_some_iff.1 hx).1
  obtain ⟨ha, hb, hc, hn, hs⟩ := h
  refine ⟨key h1 ha, key h1 hb, key h1 hc, ?_, hs⟩
  rcases hf : f.normal with _ | i
  · rw [hf] at hn
    exact hn
  · rw [hf] at hn hs
    obtain ⟨x, hx⟩ := Option.isSome_iff_exists.1 (hs.1 rfl)
    rw [hx] at hn ⊢
    exact key h2 hn

omit [DecidableEq V] in
theorem shows_grow {m m' : Mesh V} (h1 : m.vertices <+: m'.vertices) (h2 : m.normals <+: m'.normals) {fs : List Face} {ts : List (Tri V)} (h : List.Forall₂ (IsFace m) fs ts) :
    List.Forall₂ (IsFace m') fs ts := h.imp fun _ _ => isFace_grow h1 h2

theorem triangle_spec {k : ℕ} {w : Weld V} (hw : Welded k w) {ts : List (Tri V)} (hs : Shows w.mesh ts) (a b c : V) (n : Option V) :
    Welded k (w.triangle a b c n) ∧ Shows (w.triangle a b c n).mesh (ts ++ if (Tri.mk a b c n).Proper then [⟨a, b, c, n⟩] else []) ∧
      (∀ u, u ∈ (w.triangle a b c n).mesh.vertices.drop k ↔ u ∈ w.mesh.vertices.drop k ∨ u = a ∨ u = b ∨ u = c) := by
  obtain ⟨w1, g1, l1, m1⟩ := handle_spec hw a
  obtain ⟨w2, g2, l2, m2⟩ := handle_spec w1 b
  obtain ⟨w3, g3, l3, m3⟩ := handle_spec w2 c
  unfold Weld.triangle
  simp only
  generalize (w.handle a).2 = i at *
  generalize (w.handle a).1 = x1 at *
  generalize (x1.handle b).2 = j at *
  generalize (x1.handle b).1 = x2 at *
  generalize (x2.handle c).2 = l at *
  generalize (x2.handle c).1 = x3 at *
  have va := w3.map a i (g3.2.2.2 _ _ (g2.2.2.2 _ _ l1))
  have vb := w3.map b j (g3.2.2.2 _ _ l2)
  have vc := w3.map c l l3
  have la := g3.2.2.2 _ _ (g2.2.2.2 _ _ l1)
  have lb := g3.2.2.2 _ _ l2
  have hab : i = j ↔ a = b := by
    constructor
    · rintro rfl
      rw [va] at vb
      exact Option.some.inj vb
    · rintro rfl
      rw [la] at lb
      exact Option.some.inj lb
  have hac : i = l ↔ a = c := by
    constructor
    · rintro rfl
      rw [va] at vc
      exact Option.some.inj vc
    · rintro rfl
      rw [la] at l3
      exact Option.some.inj l3
  have hbc : j = l ↔ b = c := by
    constructor
    · rintro rfl
      rw [vb] at vc
      exact Option.some.inj vc
    · rintro rfl
      rw [lb] at l3
      exact Option.some.inj l3
  have hv : w.mesh.vertices <+: x3.mesh.vertices := g1.2.2.1.trans (g2.2.2.1.trans g3.2.2.1)
  have hn : x3.mesh.normals = w.mesh.normals := by rw [g3.2.1, g2.2.1, g1.2.1]
  have hf : x3.mesh.faces = w.mesh.faces := by rw [g3.1, g2.1, g1.1]
  have hmem : ∀ u, u ∈ x3.mesh.vertices.drop k ↔ u ∈ w.mesh.vertices.drop k ∨ u = a ∨ u = b ∨ u = c := by
    intro u
    rw [m3, m2, m1]
    tauto
  unfold Weld.close
  by_cases hp : (Tri.mk a b c n).Proper
  · have hp' : i ≠ j ∧ i ≠ l ∧ j ≠ l := ⟨fun h => hp.1 (hab.1 h), fun h => hp.2.1 (hac.1 h), fun h => hp.2.2 (hbc.1 h)⟩
    rw [if_pos hp, if_pos hp']
    rcases n with _ | n
    · refine ⟨⟨w3.map, w3.len, w3.nodup, w3.all⟩, ?_, hmem⟩
      unfold Shows
      simp only [Mesh.addFace, hf]
      refine List.rel_append (shows_grow (m' := ⟨x3.mesh.vertices, x3.mesh.normals, _⟩) hv (by rw [hn]) hs) ?_
      exact .cons ⟨va, vb, vc, rfl, by simp⟩ .nil
    · refine ⟨⟨w3.map, w3.len, w3.nodup, w3.all⟩, ?_, hmem⟩
      unfold Shows
      simp only [Mesh.addFace, hf]
      refine List.rel_append (shows_grow (m' := ⟨x3.mesh.vertices, x3.mesh.normals ++ [n], _⟩) hv (by rw [hn]; exact List.prefix_append _ _) hs) ?_
      refine .cons ⟨va, vb, vc, ?_, by simp⟩ .nil
      simp
  · have hp' : ¬ (i ≠ j ∧ i ≠ l ∧ j ≠ l) := fun ⟨h1, h2, h3⟩ => hp ⟨fun h => h1 (hab.2 h), fun h => h2 (hac.2 h), fun h => h3 (hbc.2 h)⟩
    rw [if_neg hp, if_neg hp', List.append_nil]
    refine ⟨w3, ?_, hmem⟩
    unfold Shows
    rw [hf]
    exact shows_grow hv (by rw [hn]) hs

omit [DecidableEq V] in
theorem welded_start [DecidableEq V] (t : Mesh V) : Welded t.vertices.length (⟨t, []⟩ : Weld V) where
  map := by simp
  len := le_rfl
  nodup := by simp
  all := by simp

end

theorem swap_swap (q : Quad) : q.swap.swap = q := rfl

theorem readInt_eq (big : Bool) (junk : Quad) (s : List UInt8) : readInt big junk s = ((read4 junk s).1.little, (read4 junk s).2) := by
  unfold readInt
  cases big <;> simp [Quad.onHost, swap_swap]

theorem readFloat_eq {F : Type} (flt : Quad → F) (big : Bool) (junk : Quad) (s : List UInt8) : readFloat flt big junk s = (flt (read4 junk s).1, (read4 junk s).2) := by
  unfold readFloat
  cases big <;> simp [floatOnHost, swap_swap]

theorem read4_bytes (junk q : Quad) (s : List UInt8) : read4 junk (q.bytes ++ s) = (q, s) := rfl

theorem readVec_bytes {F : Type} (flt : Quad → F) (big : Bool) (junk : Quad) (v : Quad × Quad × Quad) (s : List UInt8) : readVec flt big junk (vecBytes v ++ s) = (vecOf flt v, s) := by
  unfold readVec vecBytes
  simp only [readFloat_eq, List.append_assoc, read4_bytes]
  rfl

theorem le32_little (n : ℕ) (hn : n < 2 ^ 32) (junk : Quad) (s : List UInt8) : (read4 junk (le32 n ++ s)).1.little = n ∧ (read4 junk (le32 n ++ s)).2 = s := by
  constructor
  · simp only [le32, read4, List.cons_append, Quad.little, UInt8.toNat_ofNat']
    omega
  · rfl

theorem le32_length (n : ℕ) : (le32 n).length = 4 := rfl

theorem record_length (r : Record) : r.bytes.length = 50 := rfl

theorem records_length (rs : List Record) : (rs.flatMap Record.bytes).length = 50 * rs.length := by
  induction rs with
  | nil => rfl
  | cons r rs ih =>
    rw [List.flatMap_cons, List.length_append, ih, record_length, List.length_cons]
    omega

end Simox.Stl
