import Verif.Mc.SurfaceProps

/-!
# Marching cubes, the search for one surface: lemmas
-/

namespace Simox.Mc

set_option linter.unusedSectionVars false

variable {K : Type} [Field K] [LinearOrder K] [IsStrictOrderedRing K]

/-- The array marks the cells in `V`. -/
def Marks (n : Nat) (V : List Index) (a : Array3D Bool) : Prop :=
  a.WF ∧ a.size = n + 1 ∧ ∀ c, InRange n c → a.get c.1 c.2.1 c.2.2 = some (decide (c ∈ V))

/-- What adding the cells in `T` does. -/
def Ext (n : Nat) (V : List Index) (fr : List Index) (r : Option (List Index × Array3D Bool)) (T : List Index) : Prop :=
  ∃ new a, r = some (fr ++ new, a) ∧ Marks n (V ++ new) a ∧ (∀ d ∈ new, InRange n d ∧ d ∉ V) ∧ new.Nodup ∧
    ∀ d ∈ T, InRange n d → d ∈ V ++ new

theorem valid_iff (n : Nat) (x y z : Int) : isValidIndex n x y z = true ↔ InRange n (x, y, z) := by
  simp only [isValidIndex, decide_eq_true_eq, InRange]

theorem inRange_succ {n : Nat} {c : Index} (h : InRange n c) : InRange ((n : Int) + 1) c := by
  simp only [InRange] at h ⊢; omega

theorem add_ext {n : Nat} {V : List Index} {a : Array3D Bool} (hm : Marks n V a) (fr : List Index) (x y z : Int) :
    Ext n V fr (addAndMark n x y z (fr, a)) [(x, y, z)] := by
  obtain ⟨hw, hs, hg⟩ := hm
  by_cases hv : isValidIndex n x y z = true
  · have hr := (valid_iff n x y z).1 hv
    have hget := hg _ hr
    simp only at hget
    by_cases hin : (x, y, z) ∈ V
    · refine ⟨[], a, ?_, ?_, by simp, List.nodup_nil, ?_⟩
      · simp [addAndMark, hv, hget, hin]
      · rw [List.append_nil]; exact ⟨hw, hs, hg⟩
      · intro d hd _; simp only [List.mem_singleton] at hd; rw [hd]; simpa using hin
    · obtain ⟨-, a', h1, h2, h3, h4, h5⟩ := array_get_set hw (hs ▸ inRange_succ hr) true
      refine ⟨[(x, y, z)], a', ?_, ⟨h2, h3.trans hs, ?_⟩, ?_, List.nodup_singleton _, ?_⟩
      · simp only [addAndMark, hv, not_true_eq_false, if_false, hget, hin, decide_false]
        simp only at h1
        rw [h1]; rfl
      · intro c hc
        by_cases he : c = (x, y, z)
        · subst he; simpa using h4
        · rw [h5 c (hs ▸ inRange_succ hc) he, hg c hc]
          simp [he]
      · intro d hd; simp only [List.mem_singleton] at hd; rw [hd]; exact ⟨hr, hin⟩
      · intro d hd _; simp only [List.mem_singleton] at hd; rw [hd]; simp
  · refine ⟨[], a, ?_, ?_, by simp, List.nodup_nil, ?_⟩
    · simp [addAndMark, hv]
    · rw [List.append_nil]; exact ⟨hw, hs, hg⟩
    · intro d hd hr; simp only [List.mem_singleton] at hd; rw [hd] at hr
      exact absurd ((valid_iff n x y z).2 hr) hv

theorem ext_bind {n : Nat} {V fr : List Index} {r : Option (List Index × Array3D Bool)} {T : List Index}
    (h : Ext n V fr r T) (x y z : Int) : Ext n V fr (r.bind (addAndMark n x y z)) (T ++ [(x, y, z)]) := by
  obtain ⟨new, a, h1, h2, h3, h4, h5⟩ := h
  obtain ⟨new', a', k1, k2, k3, k4, k5⟩ := add_ext h2 (fr ++ new) x y z
  refine ⟨new ++ new', a', ?_, ?_, ?_, ?_, ?_⟩
  · rw [h1, Option.bind_some, k1, List.append_assoc]
  · rw [← List.append_assoc]; exact k2
  · intro d hd
    rcases List.mem_append.1 hd with hd | hd
    · exact h3 d hd
    · exact ⟨(k3 d hd).1, fun hV => (k3 d hd).2 (List.mem_append_left _ hV)⟩
  · rw [List.nodup_append]
    refine ⟨h4, k4, ?_⟩
    intro d hd e he hde
    subst hde
    exact (k3 d he).2 (List.mem_append_right _ hd)
  · intro d hd hr
    rw [← List.append_assoc]
    rcases List.mem_append.1 hd with hd | hd
    · exact List.mem_append_left _ (h5 d hd hr)
    · exact k5 d hd hr

theorem neighbours_ext {n : Nat} {V : List Index} {a : Array3D Bool} (hm : Marks n V a) (fr : List Index) (c : Index) :
    ∃ new a', addNeighbours n c.1 c.2.1 c.2.2 (fr, a) = some (fr ++ new, a') ∧ Marks n (V ++ new) a' ∧
      (∀ d ∈ new, InRange n d ∧ d ∉ V) ∧ new.Nodup ∧ ∀ d, Neighbour c d → InRange n d → d ∈ V ++ new := by
  obtain ⟨i, j, k⟩ := c
  have h := ext_bind (ext_bind (ext_bind (ext_bind (ext_bind (add_ext hm fr (i + 1) j k) (i - 1) j k) i (j + 1) k)
    i (j - 1) k) i j (k + 1)) i j (k - 1)
  obtain ⟨new, a', h1, h2, h3, h4, h5⟩ := h
  refine ⟨new, a', h1, h2, h3, h4, ?_⟩
  rintro ⟨x, y, z⟩ hn hr
  apply h5 _ _ hr
  simp only [Neighbour] at hn
  simp only [List.cons_append, List.nil_append, List.mem_cons, List.not_mem_nil, or_false, Prod.mk.injEq]
  omega

/-- The state of the search after the cells in `C`. -/
structure SInv (g : Index → K) (iso : K) (n : Nat) (start : Index) (C : List Index) (s : Search K) : Prop where
  marks : Marks n (C ++ s.fringe) s.marked
  nodup : (C ++ s.fringe).Nodup
  range : ∀ c ∈ C ++ s.fringe, InRange n c
  start : start ∈ C ++ s.fringe
  out : s.out = C.flatMap fun c => cellTris g iso c.1 c.2.1 c.2.2
  found : s.found = true ↔ ∃ c ∈ C, HasSurface g iso c
  closed : ∀ c ∈ C, (HasSurface g iso c ∨ s.found = false) → ∀ d, Neighbour c d → InRange n d → d ∈ C ++ s.fringe

theorem length_le {n : Nat} {l : List Index} (hnd : l.Nodup) (h : ∀ c ∈ l, InRange n c) : l.length ≤ n ^ 3 := by
  have h1 : l.toFinset ⊆ grid n := by
    intro c hc; rw [mem_grid]; exact h c (List.mem_toFinset.1 hc)
  have h2 := Finset.card_le_card h1
  rw [List.toFinset_card_of_nodup hnd] at h2
  have h3 : (grid n).card = n ^ 3 := by
    simp only [grid, Finset.card_product, Int.card_Ico, sub_zero, Int.toNat_natCast]; ring
  omega

theorem cellTris_nil (g : Index → K) (iso : K) (c : Index) : cellTris g iso c.1 c.2.1 c.2.2 = [] ↔ ¬ HasSurface g iso c := by
  have h1 := hasSurface_iff g iso c.1 c.2.1 c.2.2
  have h2 : HasSurface g iso c ↔ tris (cellRow g iso c.1 c.2.1 c.2.2) ≠ [] := h1
  rw [h2]
  simp [cellTris]

theorem step_inv {g : Index → K} {iso : K} {n : Nat} {start : Index} {C : List Index} {s : Search K}
    (h : SInv g iso n start C s) {index : Index} {fringe : List Index} (hf : s.fringe = index :: fringe) :
    ∃ s', searchStep g iso n index fringe s = some s' ∧ SInv g iso n start (C ++ [index]) s' := by
  have hV : C ++ s.fringe = (C ++ [index]) ++ fringe := by rw [hf]; simp
  have hp := (cellFacts g iso index.1 index.2.1 index.2.2).poly
  have hnil := cellTris_nil g iso index
  have hmarks := h.marks
  rw [hV] at hmarks
  have hout : s.out ++ cellTris g iso index.1 index.2.1 index.2.2 =
      (C ++ [index]).flatMap fun c => cellTris g iso c.1 c.2.1 c.2.2 := by
    rw [List.flatMap_append, h.out]; simp
  have hlen : (cellTris g iso index.1 index.2.1 index.2.2).length > 0 ↔ HasSurface g iso index := by
    rw [gt_iff_lt, List.length_pos_iff, Ne, hnil, not_not]
  have hfound : ∀ b : Bool, b = (if (cellTris g iso index.1 index.2.1 index.2.2).length > 0 then true else s.found) →
      (b = true ↔ ∃ c ∈ C ++ [index], HasSurface g iso c) := by
    intro b hb
    rw [hb]
    by_cases hs : HasSurface g iso index
    · rw [if_pos (hlen.2 hs)]
      exact ⟨fun _ => ⟨index, by simp, hs⟩, fun _ => rfl⟩
    · rw [if_neg (fun hc => hs (hlen.1 hc)), h.found]
      constructor
      · rintro ⟨c, hc, hcs⟩; exact ⟨c, by simp [hc], hcs⟩
      · rintro ⟨c, hc, hcs⟩
        rcases List.mem_append.1 hc with hc | hc
        · exact ⟨c, hc, hcs⟩
        · simp only [List.mem_singleton] at hc; rw [hc] at hcs; exact absurd hcs hs
  simp only [searchStep, hp]
  by_cases hexp : (cellTris g iso index.1 index.2.1 index.2.2).length > 0 ∨
      (if (cellTris g iso index.1 index.2.1 index.2.2).length > 0 then true else s.found) = false
  · rw [if_pos hexp]
    obtain ⟨new, a', k1, k2, k3, k4, k5⟩ := neighbours_ext hmarks fringe index
    rw [k1]
    refine ⟨_, rfl, ?_⟩
    have hassoc : (C ++ [index]) ++ (fringe ++ new) = ((C ++ [index]) ++ fringe) ++ new := by rw [List.append_assoc _ fringe new]
    constructor
    · simp only; rw [hassoc]; exact k2
    · simp only; rw [hassoc, List.nodup_append]
      refine ⟨hV ▸ h.nodup, k4, ?_⟩
      intro c hc d hd hcd
      subst hcd
      exact (k3 c hd).2 hc
    · simp only; rw [hassoc]
      intro c hc
      rcases List.mem_append.1 hc with hc | hc
      · exact h.range c (hV ▸ hc)
      · exact (k3 c hc).1
    · simp only; rw [hassoc]; exact List.mem_append_left _ (hV ▸ h.start)
    · exact hout
    · exact hfound _ rfl
    · simp only; rw [hassoc]
      intro c hc hcs d hn hd
      rcases List.mem_append.1 hc with hc | hc
      · have : HasSurface g iso c ∨ s.found = false := by
          rcases hcs with hcs | hcs
          · exact Or.inl hcs
          · right
            by_cases hl : (cellTris g iso index.1 index.2.1 index.2.2).length > 0
            · rw [if_pos hl] at hcs; exact absurd hcs (by decide)
            · rw [if_neg hl] at hcs; exact hcs
        exact List.mem_append_left _ (hV ▸ h.closed c hc this d hn hd)
      · simp only [List.mem_singleton] at hc
        rw [hc] at hn
        exact k5 d hn hd
  · rw [if_neg hexp]
    push Not at hexp
    refine ⟨_, rfl, ?_⟩
    constructor
    · exact hmarks
    · simp only; rw [← hV]; exact h.nodup
    · simp only; rw [← hV]; exact h.range
    · simp only; rw [← hV]; exact h.start
    · exact hout
    · exact hfound _ rfl
    · simp only; rw [← hV]
      intro c hc hcs d hn hd
      rcases hcs with hcs | hcs
      · rcases List.mem_append.1 hc with hc | hc
        · exact h.closed c hc (Or.inl hcs) d hn hd
        · simp only [List.mem_singleton] at hc
          rw [hc] at hcs
          exact absurd (hlen.2 hcs) (not_lt.2 hexp.1)
      · exact absurd hcs hexp.2

theorem loop_inv {g : Index → K} {iso : K} {n : Nat} {start : Index} : ∀ (fuel : Nat) (C : List Index) (s : Search K),
    SInv g iso n start C s → n ^ 3 < fuel + C.length →
    ∃ C' s', SInv g iso n start C' s' ∧ s'.fringe = [] ∧ searchLoop g iso n fuel s = some s'.out
  | 0, C, s, h, hl => by
    have := length_le (List.Nodup.of_append_left h.nodup) (fun c hc => h.range c (List.mem_append_left _ hc))
    omega
  | fuel + 1, C, s, h, hl => by
    cases hf : s.fringe with
    | nil => exact ⟨C, s, h, hf, by simp [searchLoop, hf]⟩
    | cons index fringe =>
      obtain ⟨s', h1, h2⟩ := step_inv h hf
      obtain ⟨C', s'', k1, k2, k3⟩ := loop_inv fuel (C ++ [index]) s' h2 (by simp; omega)
      refine ⟨C', s'', k1, k2, ?_⟩
      simp only [searchLoop, hf, h1, Option.bind_some, k3]

/-- The cells of the grid are connected. -/
theorem grid_connected {n : Nat} {start : Index} {C : List Index} (hs : start ∈ C) (hsr : InRange n start)
    (h : ∀ c ∈ C, ∀ d, Neighbour c d → InRange n d → d ∈ C) : ∀ (k : Nat) (d : Index), InRange n d →
    (d.1 - start.1).natAbs + (d.2.1 - start.2.1).natAbs + (d.2.2 - start.2.2).natAbs = k → d ∈ C
  | 0, d, _, hk => by
    have : d = start := by
      obtain ⟨x, y, z⟩ := d
      obtain ⟨a, b, c⟩ := start
      simp only at hk
      simp only [Prod.mk.injEq]
      omega
    rw [this]; exact hs
  | k + 1, d, hd, hk => by
    obtain ⟨e, he, hn, hek⟩ : ∃ e, InRange n e ∧ Neighbour e d ∧
        (e.1 - start.1).natAbs + (e.2.1 - start.2.1).natAbs + (e.2.2 - start.2.2).natAbs = k := by
      by_cases h1 : d.1 = start.1
      · by_cases h2 : d.2.1 = start.2.1
        · by_cases h3 : d.2.2 < start.2.2
          · exact ⟨(d.1, d.2.1, d.2.2 + 1), by simp only [InRange] at hd hsr ⊢; omega, by simp [Neighbour], by simp only; omega⟩
          · exact ⟨(d.1, d.2.1, d.2.2 - 1), by simp only [InRange] at hd hsr ⊢; omega, by simp [Neighbour], by simp only; omega⟩
        · by_cases h3 : d.2.1 < start.2.1
          · exact ⟨(d.1, d.2.1 + 1, d.2.2), by simp only [InRange] at hd hsr ⊢; omega, by simp [Neighbour], by simp only; omega⟩
          · exact ⟨(d.1, d.2.1 - 1, d.2.2), by simp only [InRange] at hd hsr ⊢; omega, by simp [Neighbour], by simp only; omega⟩
      · by_cases h3 : d.1 < start.1
        · exact ⟨(d.1 + 1, d.2.1, d.2.2), by simp only [InRange] at hd hsr ⊢; omega, by simp [Neighbour], by simp only; omega⟩
        · exact ⟨(d.1 - 1, d.2.1, d.2.2), by simp only [InRange] at hd hsr ⊢; omega, by simp [Neighbour], by simp only; omega⟩
    exact h e (grid_connected hs hsr h k e he hek) d hn hd

end Simox.Mc
