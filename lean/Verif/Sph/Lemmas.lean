import Mathlib.Tactic.Ring
import Mathlib.Tactic.Linarith
import Mathlib.Tactic.FieldSimp
import Mathlib.Tactic.NormNum
import Mathlib.Tactic.Push
import Verif.Sph.Spec

/-!
# Approximations of spheres: lemmas
-/

namespace Simox.Sph

@[simp] theorem add_x (a b : Vec) : (a + b).x = a.x + b.x := rfl
@[simp] theorem add_y (a b : Vec) : (a + b).y = a.y + b.y := rfl
@[simp] theorem add_z (a b : Vec) : (a + b).z = a.z + b.z := rfl
@[simp] theorem sub_x (a b : Vec) : (a - b).x = a.x - b.x := rfl
@[simp] theorem sub_y (a b : Vec) : (a - b).y = a.y - b.y := rfl
@[simp] theorem sub_z (a b : Vec) : (a - b).z = a.z - b.z := rfl
@[simp] theorem smul_x (k : ℝ) (a : Vec) : (k • a).x = k * a.x := rfl
@[simp] theorem smul_y (k : ℝ) (a : Vec) : (k • a).y = k * a.y := rfl
@[simp] theorem smul_z (k : ℝ) (a : Vec) : (k • a).z = k * a.z := rfl

/-! ### Projection -/

theorem norm_sq (a : Vec) : a.norm ^ 2 = a.x * a.x + a.y * a.y + a.z * a.z := Real.sq_sqrt (by nlinarith [mul_self_nonneg a.x, mul_self_nonneg a.y, mul_self_nonneg a.z])

theorem norm_nonneg (a : Vec) : 0 ≤ a.norm := Real.sqrt_nonneg _

theorem norm_eq_zero {a : Vec} (h : a.norm = 0) : a = ⟨0, 0, 0⟩ := by
  have h1 := norm_sq a
  rw [h] at h1
  have hx : a.x = 0 := by nlinarith [mul_self_nonneg a.x, mul_self_nonneg a.y, mul_self_nonneg a.z]
  have hy : a.y = 0 := by nlinarith [mul_self_nonneg a.x, mul_self_nonneg a.y, mul_self_nonneg a.z]
  have hz : a.z = 0 := by nlinarith [mul_self_nonneg a.x, mul_self_nonneg a.y, mul_self_nonneg a.z]
  ext <;> assumption

theorem sin_atan2 (y x : ℝ) : Real.sin (atan2 y x) = y / √(x * x + y * y) := by
  unfold atan2
  rw [Complex.sin_arg, Complex.norm_def, Complex.normSq_mk]

theorem cos_atan2 {y x : ℝ} (h : √(x * x + y * y) ≠ 0) : Real.cos (atan2 y x) = x / √(x * x + y * y) := by
  unfold atan2
  rw [Complex.cos_arg, Complex.norm_def, Complex.normSq_mk]
  intro e
  apply h
  have h1 : x = 0 := congrArg Complex.re e
  have h2 : y = 0 := congrArg Complex.im e
  rw [h1, h2]
  simp

theorem project_norm (radius : ℝ) (v : Vec) : (project radius v).norm = |radius| := by
  unfold Vec.norm project
  simp only
  have e : ∀ s c s' c' : ℝ, s ^ 2 + c ^ 2 = 1 → s' ^ 2 + c' ^ 2 = 1 → radius * s * c' * (radius * s * c') + radius * s * s' * (radius * s * s') + radius * c * (radius * c) = radius ^ 2 := by
    intro s c s' c' h h'
    have : radius * s * c' * (radius * s * c') + radius * s * s' * (radius * s * s') + radius * c * (radius * c) = radius ^ 2 * (s ^ 2 * (s' ^ 2 + c' ^ 2) + c ^ 2) := by ring
    rw [this, h', mul_one, h, mul_one]
  rw [e _ _ _ _ (Real.sin_sq_add_cos_sq _) (Real.sin_sq_add_cos_sq _), Real.sqrt_sq_eq_abs]

theorem project_eq (radius : ℝ) {v : Vec} (hv : v.norm ≠ 0) : project radius v = (radius / v.norm) • v := by
  have hr : √(v.x * v.x + v.y * v.y) * √(v.x * v.x + v.y * v.y) = v.x * v.x + v.y * v.y := Real.mul_self_sqrt (by nlinarith [mul_self_nonneg v.x, mul_self_nonneg v.y])
  have hn : √(v.z * v.z + √(v.x * v.x + v.y * v.y) * √(v.x * v.x + v.y * v.y)) = v.norm := by
    rw [hr]
    unfold Vec.norm
    congr 1
    ring
  have hs := sin_atan2 √(v.x * v.x + v.y * v.y) v.z
  have hc := cos_atan2 (y := √(v.x * v.x + v.y * v.y)) (x := v.z) (by rw [hn]; exact hv)
  rw [hn] at hs hc
  unfold project
  simp only
  rw [hs, hc]
  by_cases h0 : √(v.x * v.x + v.y * v.y) = 0
  · rw [h0] at hr ⊢
    have hx : v.x = 0 := by nlinarith [mul_self_nonneg v.x, mul_self_nonneg v.y]
    have hy : v.y = 0 := by nlinarith [mul_self_nonneg v.x, mul_self_nonneg v.y]
    ext
    · simp [hx]
    · simp [hy]
    · simp
      ring
  · rw [sin_atan2, cos_atan2 h0]
    clear hs hc hn hr
    generalize √(v.x * v.x + v.y * v.y) = s at h0 ⊢
    ext
    · simp
      field_simp
    · simp
      field_simp
    · simp
      ring

/-- Projection keeps directions. -/
theorem project_along {radius : ℝ} (hr : 0 < radius) (v : Vec) : Along v (project radius v) := by
  by_cases hv : v.norm = 0
  · refine ⟨0, le_rfl, ?_⟩
    rw [norm_eq_zero hv]
    ext <;> simp
  · refine ⟨v.norm / radius, div_nonneg (norm_nonneg v) hr.le, ?_⟩
    rw [project_eq radius hv]
    ext <;> simp <;> field_simp

/-! ### Division of faces -/

theorem nearest_lt (p : Vec) : ∀ (vs : List Vec) (i : ℕ) (best : Option (ℝ × ℕ)) (r : ℝ × ℕ), (∀ b, best = some b → b.2 < i) → nearest p vs i best = some r → r.2 < i + vs.length
  | [], i, best, r, hb, h => by
    have := hb r h
    simpa using this
  | v :: vs, i, none, r, _, h => by
    have := nearest_lt p vs (i + 1) (some (angle p v, i)) r (fun b hb => by cases hb; exact Nat.lt_succ_self i) h
    simp only [List.length_cons]
    omega
  | v :: vs, i, some (d, j), r, hb, h => by
    have hj : j < i := hb (d, j) rfl
    rw [nearest] at h
    split at h
    · have := nearest_lt p vs (i + 1) (some (angle p v, i)) r (fun b hb => by cases hb; exact Nat.lt_succ_self i) h
      simp only [List.length_cons]
      omega
    · have := nearest_lt p vs (i + 1) (some (d, j)) r (fun b hb => by cases hb; exact hj.trans (Nat.lt_succ_self i)) h
      simp only [List.length_cons]
      omega

theorem findVertex_lt {p : Vec} {eps : ℝ} {vs : List Vec} {i : ℕ} (h : findVertex p eps vs = some i) : i < vs.length := by
  unfold findVertex at h
  split at h
  · cases h
  · rename_i d j hj
    split at h
    · cases h
    · cases h
      have := nearest_lt p vs 0 none (d, i) (fun b hb => by cases hb) hj
      simpa using this

theorem lookup_prefix (eps : ℝ) (p : Vec) (vs : List Vec) : vs <+: (lookup eps p vs).1 := by
  unfold lookup
  split
  · exact List.prefix_append ..
  · exact List.prefix_rfl

theorem lookup_lt (eps : ℝ) (p : Vec) (vs : List Vec) : (lookup eps p vs).2 < (lookup eps p vs).1.length := by
  unfold lookup
  split
  · simp
  · rename_i i h
    exact findVertex_lt h

theorem prefix_get {α : Type} {l l' : List α} (h : l <+: l') {i : ℕ} {a : α} (hi : l[i]? = some a) : l'[i]? = some a := by
  obtain ⟨t, rfl⟩ := h
  have hl : i < l.length := (List.getElem?_eq_some_iff.1 hi).1
  rw [List.getElem?_append_left hl]
  exact hi

/-- What a lookup without mistakes finds. -/
theorem lookup_along {eps : ℝ} {p : Vec} {vs : List Vec} (h : CleanLookup eps p vs) : ∃ w, (lookup eps p vs).1[(lookup eps p vs).2]? = some w ∧ Along p w := by
  unfold lookup
  split
  · exact ⟨p, by simp, 1, zero_le_one, by ext <;> simp⟩
  · rename_i i hi
    have hl := findVertex_lt hi
    exact ⟨_, List.getElem?_eq_getElem hl, h i _ hi (List.getElem?_eq_getElem hl)⟩

/-- What is known of a divided face. -/
theorem divideFace_some {eps : ℝ} {vs : List Vec} {f : Face} (ha : f.a < vs.length) (hb : f.b < vs.length) (hc : f.c < vs.length) :
    ∃ vs' new, divideFace eps vs f = some (vs', new) ∧ vs <+: vs' ∧ new.length = 4 ∧ ∀ g ∈ new, g.a < vs'.length ∧ g.b < vs'.length ∧ g.c < vs'.length := by
  unfold divideFace
  rw [List.getElem?_eq_getElem ha, List.getElem?_eq_getElem hb, List.getElem?_eq_getElem hc]
  simp only
  refine ⟨_, _, rfl, ?_, rfl, ?_⟩
  · exact (lookup_prefix ..).trans ((lookup_prefix ..).trans (lookup_prefix ..))
  · have p1 := (lookup_prefix eps (mid vs[f.a] vs[f.b]) vs)
    have p2 := (lookup_prefix eps (mid vs[f.b] vs[f.c]) (lookup eps (mid vs[f.a] vs[f.b]) vs).1)
    have p3 := (lookup_prefix eps (mid vs[f.c] vs[f.a]) (lookup eps (mid vs[f.b] vs[f.c]) (lookup eps (mid vs[f.a] vs[f.b]) vs).1).1)
    have l1 := lookup_lt eps (mid vs[f.a] vs[f.b]) vs
    have l2 := lookup_lt eps (mid vs[f.b] vs[f.c]) (lookup eps (mid vs[f.a] vs[f.b]) vs).1
    have l3 := lookup_lt eps (mid vs[f.c] vs[f.a]) (lookup eps (mid vs[f.b] vs[f.c]) (lookup eps (mid vs[f.a] vs[f.b]) vs).1).1
    have q1 := p1.length_le
    have q2 := p2.length_le
    have q3 := p3.length_le
    intro g hg
    simp only [List.mem_cons, List.not_mem_nil, or_false] at hg
    rcases hg with rfl | rfl | rfl | rfl <;> refine ⟨?_, ?_, ?_⟩ <;> simp only <;> omega

theorem divideFaces_some {eps : ℝ} : ∀ (fs : List Face) (vs : List Vec), (∀ f ∈ fs, f.a < vs.length ∧ f.b < vs.length ∧ f.c < vs.length) →
    ∃ vs' new, divideFaces eps vs fs = some (vs', new) ∧ vs <+: vs' ∧ new.length = 4 * fs.length ∧ ∀ g ∈ new, g.a < vs'.length ∧ g.b < vs'.length ∧ g.c < vs'.length := by
  intro fs
  induction fs with
  | nil => exact fun vs _ => ⟨vs, [], rfl, List.prefix_rfl, rfl, fun g hg => by cases hg⟩
  | cons f fs ih =>
    intro vs h
    obtain ⟨ha, hb, hc⟩ := h f (by simp)
    obtain ⟨vs1, new1, e1, p1, n1, v1⟩ := divideFace_some (eps := eps) ha hb hc
    have hle := p1.length_le
    obtain ⟨vs2, new2, e2, p2, n2, v2⟩ := ih vs1 fun g hg => by
      obtain ⟨h1, h2, h3⟩ := h g (List.mem_cons_of_mem _ hg)
      omega
    have hle2 := p2.length_le
    refine ⟨vs2, new1 ++ new2, ?_, p1.trans p2, ?_, ?_⟩
    · rw [divideFaces, e1]
      simp only
      rw [e2]
    · rw [List.length_append, n1, n2, List.length_cons]
      omega
    · intro g hg
      rcases List.mem_append.1 hg with hg | hg
      · obtain ⟨h1, h2, h3⟩ := v1 g hg
        omega
      · exact v2 g hg

theorem subDivide_some {eps : ℝ} {g : Graph} (h : g.Valid) : ∃ g', g.subDivide eps = some g' ∧ g'.Valid ∧ g'.faces.length = 4 * g.faces.length ∧ g.vertices <+: g'.vertices := by
  obtain ⟨vs', new, e, p, n, v⟩ := divideFaces_some (eps := eps) g.faces g.vertices h
  exact ⟨⟨vs', new⟩, by rw [Graph.subDivide, e]; rfl, v, n, p⟩

theorem project_valid {radius : ℝ} {g : Graph} (h : g.Valid) : (g.project radius).Valid := by
  intro f hf
  have := h f hf
  simpa [Graph.project] using this

theorem levels_some {eps radius : ℝ} : ∀ (n : ℕ) (g : Graph), g.Valid → (∀ v ∈ g.vertices, v.norm = |radius|) →
    ∃ g', levels eps radius n g = some g' ∧ g'.Valid ∧ g'.faces.length = 4 ^ n * g.faces.length ∧ ∀ v ∈ g'.vertices, v.norm = |radius| := by
  intro n
  induction n with
  | zero => exact fun g hg hv => ⟨g, rfl, hg, by simp, hv⟩
  | succ n ih =>
    intro g hg hv
    obtain ⟨g1, e1, v1, n1, -⟩ := subDivide_some (eps := eps) hg
    obtain ⟨g2, e2, v2, n2, r2⟩ := ih (g1.project radius) (project_valid v1) (by
      intro v h
      obtain ⟨w, -, rfl⟩ := List.mem_map.1 h
      exact project_norm radius w)
    refine ⟨g2, ?_, v2, ?_, r2⟩
    · rw [levels, e1]
      exact e2
    · rw [n2]
      change 4 ^ n * g1.faces.length = _
      rw [n1, pow_succ]
      ring

theorem base_valid (b : Base) : b.graph.Valid := by
  intro f hf
  cases b <;> simp only [Base.graph, List.mem_cons, List.not_mem_nil, or_false] at hf ⊢
  · rcases hf with rfl | rfl | rfl | rfl <;> simp [face]
  · rcases hf with rfl | rfl | rfl | rfl | rfl | rfl | rfl | rfl <;> simp [face]
  · rcases hf with rfl | rfl | rfl | rfl | rfl | rfl | rfl | rfl | rfl | rfl | rfl | rfl | rfl | rfl | rfl | rfl | rfl | rfl | rfl | rfl <;> simp [face]

theorem base_count (b : Base) : b.graph.faces.length = b.count := by cases b <;> rfl

/-! ### The faces of a vertex -/

theorem mem_addIndex {index : ℕ → List ℕ} {i v w j : ℕ} : j ∈ addIndex index i v w ↔ j ∈ index w ∨ w = v ∧ j = i := by
  unfold addIndex
  split
  · rename_i h
    subst h
    simp
  · rename_i h
    simp [h]

theorem mem_buildIndex : ∀ (fs : List Face) (i : ℕ) (index : ℕ → List ℕ) (v j : ℕ), j ∈ buildIndex fs i index v ↔ j ∈ index v ∨ ∃ k f, fs[k]? = some f ∧ j = i + k ∧ (f.a = v ∨ f.b = v ∨ f.c = v)
  | [], i, index, v, j => by simp [buildIndex]
  | g :: fs, i, index, v, j => by
    rw [buildIndex, mem_buildIndex fs]
    simp only [mem_addIndex]
    constructor
    · rintro (((h | h) | h) | h) 
      · exact (h.elim Or.inl fun h => Or.inr ⟨0, g, rfl, h.2, Or.inl h.1.symm⟩)
      · exact Or.inr ⟨0, g, rfl, h.2, Or.inr (Or.inl h.1.symm)⟩
      · exact Or.inr ⟨0, g, rfl, h.2, Or.inr (Or.inr h.1.symm)⟩
      · obtain ⟨k, f, h1, h2, h3⟩ := h
        exact Or.inr ⟨k + 1, f, h1, by omega, h3⟩
    · rintro (h | ⟨k, f, h1, h2, h3⟩)
      · exact Or.inl (Or.inl (Or.inl (Or.inl h)))
      · cases k with
        | zero =>
          rw [List.getElem?_cons_zero, Option.some.injEq] at h1
          subst h1
          rcases h3 with h3 | h3 | h3
          · exact Or.inl (Or.inl (Or.inl (Or.inr ⟨h3.symm, h2⟩)))
          · exact Or.inl (Or.inl (Or.inr ⟨h3.symm, h2⟩))
          · exact Or.inl (Or.inr ⟨h3.symm, h2⟩)
        | succ k => exact Or.inr ⟨k, f, h1, by omega, h3⟩

end Simox.Sph
