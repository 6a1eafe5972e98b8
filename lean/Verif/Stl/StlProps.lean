import Verif.Stl.Lemmas

/-!
# C142, C143, C144: reading STL files

A file gives a mesh with exactly its triangles, in their order, where equal corners are one vertex.
-/

namespace Simox.Stl

theorem filter_step {V : Type} [DecidableEq V] (t : Tri V) (l : List (Tri V)) : (t :: l).filter (fun t => decide t.Proper) = (if t.Proper then [t] else []) ++ l.filter fun t => decide t.Proper := by
  rw [List.filter_cons]
  by_cases hp : t.Proper
  · rw [if_pos (by simpa using hp), if_pos hp]
    rfl
  · rw [if_neg (by simpa using hp), if_neg hp]
    rfl

section
variable {F : Type} [DecidableEq F]

theorem readTriangles_spec (flt : Quad → F) (sc : F × F × F → F × F × F) (big : Bool) (junk : Quad) (rest : List UInt8) {k : ℕ} (rs : List Record) : ∀ {w : Weld (F × F × F)} {ts : List (Tri (F × F × F))},
    Welded k w → Shows w.mesh ts → Welded k (readTriangles flt sc big junk rs.length (rs.flatMap Record.bytes ++ rest) w) ∧
      Shows (readTriangles flt sc big junk rs.length (rs.flatMap Record.bytes ++ rest) w).mesh (ts ++ (rs.map (Record.tri flt sc)).filter fun t => decide t.Proper) ∧
      ∀ u, u ∈ (readTriangles flt sc big junk rs.length (rs.flatMap Record.bytes ++ rest) w).mesh.vertices.drop k ↔
        u ∈ w.mesh.vertices.drop k ∨ ∃ r ∈ rs, u = (r.tri flt sc).a ∨ u = (r.tri flt sc).b ∨ u = (r.tri flt sc).c := by
  induction rs with
  | nil =>
    intro w ts h1 h2
    exact ⟨h1, by simpa [readTriangles] using h2, by simp [readTriangles]⟩
  | cons r rs ih =>
    intro w ts h1 h2
    simp only [List.flatMap_cons, List.length_cons, readTriangles, Record.bytes, List.append_assoc, readVec_bytes]
    simp only [List.cons_append, List.nil_append, List.drop_succ_cons, List.drop_zero]
    obtain ⟨h3, h4, h5⟩ := triangle_spec h1 h2 (sc (vecOf flt r.a)) (sc (vecOf flt r.b)) (sc (vecOf flt r.c)) (some (vecOf flt r.n))
    obtain ⟨h6, h7, h8⟩ := ih h3 h4
    refine ⟨h6, ?_, ?_⟩
    · convert h7 using 1
      rw [List.append_assoc]
      congr 1
      exact filter_step _ _
    · intro u
      rw [h8, h5, or_assoc]
      apply or_congr_right
      constructor
      · rintro (h | ⟨x, hx, h⟩)
        · exact ⟨_, List.mem_cons_self, h⟩
        · exact ⟨x, List.mem_cons_of_mem _ hx, h⟩
      · rintro ⟨x, hx, h⟩
        rcases List.mem_cons.1 hx with rfl | hx
        · exact .inl h
        · exact .inr ⟨x, hx, h⟩

theorem readTriangles_grow (flt : Quad → F) (sc : F × F × F → F × F × F) (big : Bool) (junk : Quad) (k : ℕ) : ∀ (s : List UInt8) (w : Weld (F × F × F)),
    w.mesh.vertices <+: (readTriangles flt sc big junk k s w).mesh.vertices := by
  have hh : ∀ (w : Weld (F × F × F)) v, w.mesh.vertices <+: (w.handle v).1.mesh.vertices := by
    intro w v
    unfold Weld.handle
    split
    · exact List.prefix_rfl
    · exact List.prefix_append _ _
  induction k with
  | zero => exact fun s w => List.prefix_rfl
  | succ k ih =>
    intro s w
    rw [readTriangles]
    refine List.IsPrefix.trans ?_ (ih _ _)
    unfold Weld.triangle Weld.close
    simp only
    split
    · refine List.IsPrefix.trans ?_ (show _ <+: (Mesh.addFace _ _ _ _ _).vertices from by rw [Mesh.addFace])
      exact (hh _ _).trans ((hh _ _).trans (hh _ _))
    · exact (hh _ _).trans ((hh _ _).trans (hh _ _))

/-- A binary file adds exactly its proper triangles to the mesh, in their order, with their normals and scaled corners. The new vertices are all different and are
the corners of the triangles. This does not depend on the order of bytes of the host, on the header, or on what is behind the triangles. -/
theorem C142_binary (flt : Quad → F) (sc : F × F × F → F × F × F) (big : Bool) (junk : Quad) {header : List UInt8} (hh : header.length = 80) (rs : List Record) (hr : rs.length < 2 ^ 32)
    (rest : List UInt8) {t : Mesh (F × F × F)} {ts : List (Tri (F × F × F))} (ht : Shows t ts) :
    Shows (readBinary flt sc big junk (binaryFile header rs ++ rest) t) (ts ++ (rs.map (Record.tri flt sc)).filter fun t => decide t.Proper) ∧
      ∃ new, (readBinary flt sc big junk (binaryFile header rs ++ rest) t).vertices = t.vertices ++ new ∧ new.Nodup ∧
        ∀ u, u ∈ new ↔ ∃ r ∈ rs, u = (r.tri flt sc).a ∨ u = (r.tri flt sc).b ∨ u = (r.tri flt sc).c := by
  have hd : (binaryFile header rs ++ rest).drop 80 = le32 rs.length ++ (rs.flatMap Record.bytes ++ rest) := by
    unfold binaryFile
    rw [List.append_assoc, List.append_assoc, ← hh, List.drop_left]
  have hb : readBinary flt sc big junk (binaryFile header rs ++ rest) t = (readTriangles flt sc big junk rs.length (rs.flatMap Record.bytes ++ rest) ⟨t, []⟩).mesh := by
    unfold readBinary
    obtain ⟨h1, h2⟩ := le32_little rs.length hr junk (rs.flatMap Record.bytes ++ rest)
    rw [hd, readInt_eq]
    simp only
    rw [h1, h2]
  obtain ⟨h1, h2, h3⟩ := readTriangles_spec flt sc big junk rest rs (welded_start t) ht
  rw [hb]
  refine ⟨h2, ?_⟩
  obtain ⟨new, hn⟩ := readTriangles_grow flt sc big junk rs.length (rs.flatMap Record.bytes ++ rest) ⟨t, []⟩
  have hdr : (readTriangles flt sc big junk rs.length (rs.flatMap Record.bytes ++ rest) ⟨t, []⟩).mesh.vertices.drop t.vertices.length = new := by
    rw [← hn, List.drop_left]
  refine ⟨new, hn.symm, ?_, ?_⟩
  · rw [← hdr]
    exact h1.nodup
  · intro u
    rw [← hdr, h3]
    simp

end

/-- Four bytes with a small number. -/
def small (n : UInt8) : Quad := ⟨n, 0, 0, 0⟩

/-- A mesh with two triangles that share an edge, from three records of which one is a line. -/
example : (readBinary Quad.little id false (small 0) (binaryFile (List.replicate 80 7)
      [⟨(small 0, small 0, small 1), (small 0, small 0, small 0), (small 1, small 0, small 0), (small 0, small 1, small 0), 0, 0⟩,
       ⟨(small 0, small 0, small 1), (small 0, small 0, small 0), (small 0, small 0, small 0), (small 0, small 1, small 0), 0, 0⟩,
       ⟨(small 0, small 0, small 1), (small 1, small 0, small 0), (small 1, small 1, small 0), (small 0, small 1, small 0), 0, 0⟩]) ⟨[], [], []⟩).faces = [⟨0, 1, 2, some 0⟩, ⟨1, 3, 2, some 1⟩] := by
  decide +kernel

/-- A binary file that ends within a triangle is read without an error, and what is read depends on memory that was never written. -/
theorem C142_truncated_false : ∃ (s : List UInt8) (junk junk' : Quad), s <+: binaryFile (List.replicate 80 0) [⟨(small 0, small 0, small 1), (small 0, small 0, small 0), (small 1, small 0, small 0), (small 0, small 1, small 0), 0, 0⟩] ∧
    (readBinary Quad.little id false junk s ⟨[], [], []⟩).vertices ≠ (readBinary Quad.little id false junk' s ⟨[], [], []⟩).vertices ∧
    (readBinary Quad.little id false junk s ⟨[], [], []⟩).faces.length = 1 := by
  refine ⟨(binaryFile (List.replicate 80 0) [⟨(small 0, small 0, small 1), (small 0, small 0, small 0), (small 1, small 0, small 0), (small 0, small 1, small 0), 0, 0⟩]).take 120, small 5, small 6, List.take_prefix _ _, ?_, ?_⟩
  · decide +kernel
  · decide +kernel

/-! ## C143: which format a file has -/

/-- Binary files with less than 2³¹ triangles are recognised. -/
theorem C143_binary (big : Bool) {header : List UInt8} (hh : header.length = 80) (rs : List Record) (hr : rs.length < 2 ^ 31) : checkType big (binaryFile header rs) = some .binary := by
  have hlen : (binaryFile header rs).length = 84 + 50 * rs.length := by
    unfold binaryFile
    rw [List.length_append, List.length_append, hh, le32_length, records_length]
  have hd : (binaryFile header rs).drop 80 = le32 rs.length ++ rs.flatMap Record.bytes := by
    unfold binaryFile
    rw [List.append_assoc, ← hh, List.drop_left]
  obtain ⟨h1, _⟩ := le32_little rs.length (by omega) ⟨0, 0, 0, 0⟩ (rs.flatMap Record.bytes)
  unfold checkType
  rw [if_neg (by omega)]
  simp only
  rw [hd, readInt_eq, h1, signExtend, if_pos hr, hlen, if_pos]
  omega

/-- Other files of at least 84 bytes are read as text: exactly those whose length is not the one that their bytes 80 to 83 give as a binary file. -/
theorem C143_text (big : Bool) {s : List UInt8} (hs : 84 ≤ s.length) (hl : s.length < 2 ^ 63) {n : ℕ} (hn : n < 2 ^ 31) {rest : List UInt8} (hd : s.drop 80 = le32 n ++ rest) :
    checkType big s = some (if s.length = 84 + 50 * n then .binary else .text) := by
  obtain ⟨h1, _⟩ := le32_little n (by omega) ⟨0, 0, 0, 0⟩ rest
  unfold checkType
  rw [if_neg (by omega)]
  simp only
  rw [hd, readInt_eq, h1, signExtend, if_pos hn]
  have : (84 + n * 50) % 2 ^ 64 = 84 + 50 * n := by omega
  rw [this]
  by_cases h : s.length = 84 + 50 * n
  · rw [if_pos h.symm, if_pos h]
  · rw [if_neg (Ne.symm h), if_neg h]

theorem wrapped_aux {m c n : ℕ} (hd : ¬ m ∣ 50 * c) : ¬ (84 + (n + c) * 50) % m = 84 + 50 * n := by
  intro h
  apply hd
  have h2 := Nat.dvd_sub_mod (n := m) (84 + (n + c) * 50)
  rw [h] at h2
  convert h2 using 1
  omega

theorem wrapped (n : ℕ) : ¬ (84 + (n + 2 ^ 64 - 2 ^ 32) * 50) % 2 ^ 64 = 84 + 50 * n := by
  have hc : n + 2 ^ 64 - 2 ^ 32 = n + (2 ^ 64 - 2 ^ 32) := Nat.add_sub_assoc (Nat.pow_le_pow_right (by decide) (by decide)) n
  rw [hc]
  exact wrapped_aux (by decide)

/-- A binary file with 2³¹ triangles or more is taken for text: the number of triangles is read with a sign. -/
theorem C143_many_false (big : Bool) {header : List UInt8} (hh : header.length = 80) (rs : List Record) (hr : 2 ^ 31 ≤ rs.length) (hr' : rs.length < 2 ^ 32) : checkType big (binaryFile header rs) = some .text := by
  have hlen : (binaryFile header rs).length = 84 + 50 * rs.length := by
    unfold binaryFile
    rw [List.length_append, List.length_append, hh, le32_length, records_length]
  have hd : (binaryFile header rs).drop 80 = le32 rs.length ++ rs.flatMap Record.bytes := by
    unfold binaryFile
    rw [List.append_assoc, ← hh, List.drop_left]
  obtain ⟨h1, _⟩ := le32_little rs.length hr' ⟨0, 0, 0, 0⟩ (rs.flatMap Record.bytes)
  unfold checkType
  rw [if_neg (by omega)]
  simp only
  rw [hd, readInt_eq, h1]
  have hse : signExtend rs.length = rs.length + 2 ^ 64 - 2 ^ 32 := by
    unfold signExtend
    rw [if_neg (by omega)]
  simp only
  rw [hse, hlen, if_neg (wrapped _)]

/-- A text file with less than 84 bytes ends in an exception: here an empty solid. -/
theorem C143_short_false : ∃ s : List UInt8, s = ("solid a\nendsolid a\n".toUTF8).toList ∧ s ≠ [] ∧ checkType false s = none := by
  refine ⟨_, rfl, by decide +kernel, by decide +kernel⟩

/-- The hypotheses of `C143_text` hold for 100 blanks. -/
example : (List.replicate 100 (32 : UInt8)).drop 80 = le32 538976288 ++ List.replicate 16 32 ∧ (538976288 : ℕ) < 2 ^ 31 := by
  refine ⟨by decide +kernel, by decide⟩

/-! ## C144: the text format -/

section
variable {V : Type} [DecidableEq V]

theorem readLines_plain (num : String → V → V) (sc : V → V) (ls rest : List String) (h : ∀ l ∈ ls, Plain l) (t : Text V) : readLines num sc (ls ++ rest) t = readLines num sc rest t := by
  induction ls with
  | nil => rfl
  | cons l ls ih =>
    obtain ⟨h1, h2⟩ := h l (by simp)
    rw [List.cons_append, readLines, if_neg (by simp [h2]), Text.normal, if_neg (by simp [h1])]
    exact ih fun l hl => h l (List.mem_cons_of_mem _ hl)

theorem readLines_spec (num : String → V → V) (num' : String → V) (sc : V → V) {k : ℕ} (rest : List String) (hrest : ∀ l ∈ rest, Plain l) (fs : List Facet) :
    (∀ f ∈ fs, f.Ok ∧ ∀ v, num f.normal v = num' f.normal ∧ num f.a v = num' f.a ∧ num f.b v = num' f.b ∧ num f.c v = num' f.c) → ∀ {t : Text V} {ts : List (Tri V)}, Welded k t.weld → Shows t.weld.mesh ts →
      Welded k (readLines num sc (fs.flatMap Facet.lines ++ rest) t).weld ∧ Shows (readLines num sc (fs.flatMap Facet.lines ++ rest) t).weld.mesh (ts ++ (fs.map (Facet.tri num' sc)).filter fun t => decide t.Proper) ∧
      ∀ u, u ∈ (readLines num sc (fs.flatMap Facet.lines ++ rest) t).weld.mesh.vertices.drop k ↔
        u ∈ t.weld.mesh.vertices.drop k ∨ ∃ f ∈ fs, u = (f.tri num' sc).a ∨ u = (f.tri num' sc).b ∨ u = (f.tri num' sc).c := by
  induction fs with
  | nil =>
    intro _ t ts h1 h2
    have : readLines num sc (([] : List Facet).flatMap Facet.lines ++ rest) t = t := by
      rw [List.flatMap_nil, List.nil_append]
      have := readLines_plain num sc rest [] hrest t
      rw [List.append_nil] at this
      rw [this, readLines]
    rw [this]
    exact ⟨h1, by simpa using h2, by simp⟩
  | cons f fs ih =>
    intro hok t ts h1 h2
    obtain ⟨⟨o1, o2, o3, o4, o5⟩, hnum⟩ := hok f (by simp)
    have hstep : readLines num sc ((f :: fs).flatMap Facet.lines ++ rest) t = readLines num sc (fs.flatMap Facet.lines ++ rest) ((t.normal num f.normal).loop num sc f.a f.b f.c) := by
      rw [List.flatMap_cons, List.append_assoc, Facet.lines, List.append_assoc]
      simp only [List.cons_append, List.nil_append]
      rw [readLines, if_neg (by simp [o2]), readLines, if_pos o4]
      simp only [List.drop_succ_cons, List.drop_zero, front, List.headD_cons]
      rw [readLines_plain num sc _ _ o5]
      congr 1
      rw [Text.normal, if_neg (by simp [o3])]
    rw [hstep]
    have hweld : ((t.normal num f.normal).loop num sc f.a f.b f.c).weld = t.weld.triangle (sc (num' f.a)) (sc (num' f.b)) (sc (num' f.c)) (some (num' f.normal)) := by
      rw [Text.normal, if_pos o1]
      unfold Text.loop Weld.triangle
      simp only [(hnum _).1, (hnum _).2.1, (hnum _).2.2.1, (hnum _).2.2.2, if_true]
    obtain ⟨h3, h4, h5⟩ := triangle_spec h1 h2 (sc (num' f.a)) (sc (num' f.b)) (sc (num' f.c)) (some (num' f.normal))
    rw [← hweld] at h3 h4 h5
    obtain ⟨h6, h7, h8⟩ := ih (fun g hg => hok g (List.mem_cons_of_mem _ hg)) h3 h4
    refine ⟨h6, ?_, ?_⟩
    · convert h7 using 1
      rw [List.append_assoc]
      congr 1
      exact filter_step _ _
    · intro u
      rw [h8, h5, or_assoc]
      apply or_congr_right
      constructor
      · rintro (h | ⟨x, hx, h⟩)
        · exact ⟨_, List.mem_cons_self, h⟩
        · exact ⟨x, List.mem_cons_of_mem _ hx, h⟩
      · rintro ⟨x, hx, h⟩
        rcases List.mem_cons.1 hx with rfl | hx
        · exact .inl h
        · exact .inr ⟨x, hx, h⟩

/-- A text file, with lines around its facets that are neither normals nor starts of loops, gives exactly its proper triangles, in their order, with their normals
and scaled corners; the vertices are all different and are the corners. -/
theorem C144_text_partial (num : String → V → V) (num' : String → V) (sc : V → V) (z : V) (top rest : List String) (fs : List Facet) (htop : ∀ l ∈ top, Plain l) (hrest : ∀ l ∈ rest, Plain l)
    (hfs : ∀ f ∈ fs, f.Ok ∧ ∀ v, num f.normal v = num' f.normal ∧ num f.a v = num' f.a ∧ num f.b v = num' f.b ∧ num f.c v = num' f.c) :
    Shows (readText num sc z (top ++ (fs.flatMap Facet.lines ++ rest)) ⟨[], [], []⟩) ((fs.map (Facet.tri num' sc)).filter fun t => decide t.Proper) ∧
      (readText num sc z (top ++ (fs.flatMap Facet.lines ++ rest)) ⟨[], [], []⟩).vertices.Nodup ∧
      ∀ u, u ∈ (readText num sc z (top ++ (fs.flatMap Facet.lines ++ rest)) ⟨[], [], []⟩).vertices ↔ ∃ f ∈ fs, u = (f.tri num' sc).a ∨ u = (f.tri num' sc).b ∨ u = (f.tri num' sc).c := by
  obtain ⟨h1, h2, h3⟩ := readLines_spec num num' sc (k := 0) rest hrest fs hfs (t := ⟨⟨⟨[], [], []⟩, []⟩, z, z, false⟩) (ts := []) (welded_start ⟨[], [], []⟩) .nil
  unfold readText
  rw [readLines_plain num sc top _ htop]
  refine ⟨by simpa using h2, by simpa using h1.nodup, ?_⟩
  intro u
  have := h3 u
  simpa using this

end

/-- The lines of a facet as they are written by other programs. -/
example : (⟨"facet normal 0 0 1", "outer loop", "vertex 0 0 0", "vertex 1 0 0", "vertex 0 1 0", ["endloop", "endfacet"]⟩ : Facet).Ok ∧ Plain "solid part" ∧ Plain "endsolid part" := by
  refine ⟨⟨by decide +kernel, by decide +kernel, by decide +kernel, by decide +kernel, ?_⟩, ⟨by decide +kernel, by decide +kernel⟩, ⟨by decide +kernel, by decide +kernel⟩⟩
  intro l hl
  simp only [List.mem_cons, List.not_mem_nil, or_false] at hl
  rcases hl with rfl | rfl
  · exact ⟨by decide +kernel, by decide +kernel⟩
  · exact ⟨by decide +kernel, by decide +kernel⟩

/-- The last characters of a line as a number, for the example below: 1, 2 or 3 for the three corners and 0 else. -/
def digit (l : String) (_ : ℕ) : ℕ := if l = "vertex 1 0 0" then 1 else if l = "vertex 2 0 0" then 2 else if l = "vertex 0 3 0" then 3 else 0

/-- If the name of the solid contains `outer`, its line is taken for the start of a loop: the first triangle is lost. -/
theorem C144_name_false : (readText digit id 0 (["solid part"] ++ ["facet normal 0 0 1", "outer loop", "vertex 1 0 0", "vertex 2 0 0", "vertex 0 3 0", "endloop", "endfacet", "endsolid"]) ⟨[], [], []⟩).faces.length = 1 ∧
    (readText digit id 0 (["solid outer_shell"] ++ ["facet normal 0 0 1", "outer loop", "vertex 1 0 0", "vertex 2 0 0", "vertex 0 3 0", "endloop", "endfacet", "endsolid"]) ⟨[], [], []⟩).faces.length = 0 := by
  have hn : ∀ l ∈ ["solid part", "solid outer_shell", "vertex 1 0 0", "vertex 2 0 0", "vertex 0 3 0", "endloop", "endfacet", "endsolid", "outer loop"], isNormal l = false := by decide +kernel
  have ho : ∀ l ∈ ["solid part", "facet normal 0 0 1", "vertex 1 0 0", "vertex 2 0 0", "vertex 0 3 0", "endloop", "endfacet", "endsolid"], isOuter l = false := by decide +kernel
  have ho' : ∀ l ∈ ["solid outer_shell", "outer loop"], isOuter l = true := by decide +kernel
  have hn' : isNormal "facet normal 0 0 1" = true := by decide +kernel
  simp only [List.mem_cons, List.not_mem_nil, or_false, forall_eq_or_imp, forall_eq] at hn ho ho'
  constructor
  · simp [readText, readLines, Text.normal, Text.loop, front, hn, ho, ho', hn', digit, Weld.handle, Weld.close, Mesh.addFace, List.lookup]
  · simp [readText, readLines, Text.normal, Text.loop, front, hn, ho, ho', digit, Weld.handle, Weld.close]

end Simox.Stl
