import Verif.Mc.SearchLemmas

/-!
# Marching cubes, the search for one surface: properties
-/

namespace Simox.Mc

set_option linter.unusedSectionVars false

variable {K : Type} [Field K] [LinearOrder K] [IsStrictOrderedRing K]

theorem filter_flatMap (g : Index → K) (iso : K) : ∀ C : List Index,
    ((C.filter fun c => cellTris g iso c.1 c.2.1 c.2.2 ≠ []).flatMap fun c => cellTris g iso c.1 c.2.1 c.2.2) =
      C.flatMap fun c => cellTris g iso c.1 c.2.1 c.2.2
  | [] => rfl
  | c :: C => by
    rw [List.filter_cons]
    by_cases h : cellTris g iso c.1 c.2.1 c.2.2 = []
    · rw [if_neg (by simp [h]), filter_flatMap g iso C, List.flatMap_cons, h, List.nil_append]
    · rw [if_pos (by simp [h]), List.flatMap_cons, List.flatMap_cons, filter_flatMap g iso C]

/-- The search from any cell of a grid of any size ends after at most n³ turns. Its triangles are those of a set of cells
with surface, each taken once. With each of them the set contains the neighbouring cells with surface. It is not
empty if there is a surface in any cell, and contains the start if the start has surface. -/
theorem C87_search (g : Index → K) (iso : K) (n : Nat) (start : Index) (hs : InRange n start) (fuel : Nat) (hf : n ^ 3 < fuel) :
    ∃ m C, singleSurface g iso n start fuel = some m ∧ process g iso C = some m ∧ C.Nodup ∧
      (∀ c ∈ C, InRange n c ∧ HasSurface g iso c) ∧
      (∀ c ∈ C, ∀ d, InRange n d → Neighbour c d → HasSurface g iso d → d ∈ C) ∧
      ((∃ c, InRange n c ∧ HasSurface g iso c) → C ≠ []) ∧ (HasSurface g iso start → start ∈ C) := by
  have hv := (valid_iff n start.1 start.2.1 start.2.2).2 hs
  have hw := make_wf false (size := (n : Int) + 1) (by omega)
  obtain ⟨-, a', h1, h2, h3, h4, h5⟩ := array_get_set hw (c := start) (inRange_succ hs) true
  have hinit : SInv g iso n start [] ⟨[start], a', false, []⟩ := by
    constructor
    · refine ⟨h2, h3, ?_⟩
      intro c hc
      by_cases he : c = start
      · subst he; simpa using h4
      · rw [h5 c (inRange_succ hc) he, make_get false (inRange_succ hc)]
        simp [he]
    · simp
    · intro c hc; simp only [List.nil_append, List.mem_singleton] at hc; rw [hc]; exact hs
    · simp
    · rfl
    · simp
    · simp
  obtain ⟨C, s, hI, hfr, hout⟩ := loop_inv fuel [] _ hinit (by simpa using hf)
  have hVC : C ++ s.fringe = C := by rw [hfr, List.append_nil]
  have hrun : singleSurface g iso n start fuel = some s.out := by
    rw [singleSurface, if_neg (by simp [hv]), h1, Option.bind_some, hout]
  have hmem : ∀ c, c ∈ (C.filter fun c => cellTris g iso c.1 c.2.1 c.2.2 ≠ []) ↔ c ∈ C ∧ HasSurface g iso c := by
    intro c
    rw [List.mem_filter]
    have := cellTris_nil g iso c
    constructor
    · rintro ⟨h1, h2⟩
      refine ⟨h1, ?_⟩
      by_contra hc
      rw [this.2 hc] at h2
      simp at h2
    · rintro ⟨h1, h2⟩
      refine ⟨h1, ?_⟩
      have h3 : cellTris g iso c.1 c.2.1 c.2.2 ≠ [] := fun hc => this.1 hc h2
      simp [h3]
  refine ⟨s.out, C.filter fun c => cellTris g iso c.1 c.2.1 c.2.2 ≠ [], hrun, ?_, ?_, ?_, ?_, ?_, ?_⟩
  · rw [process_eq, filter_flatMap, hI.out]
  · exact List.Nodup.filter _ (hVC ▸ hI.nodup)
  · intro c hc
    exact ⟨hI.range c (hVC.symm ▸ ((hmem c).1 hc).1), ((hmem c).1 hc).2⟩
  · intro c hc d hd hn hds
    obtain ⟨hc1, hc2⟩ := (hmem c).1 hc
    have := hI.closed c hc1 (Or.inl hc2) d hn hd
    rw [hVC] at this
    exact (hmem d).2 ⟨this, hds⟩
  · rintro ⟨c, hc, hcs⟩
    by_cases hfound : s.found = true
    · obtain ⟨d, hd, hds⟩ := hI.found.1 hfound
      exact List.ne_nil_of_mem ((hmem d).2 ⟨hd, hds⟩)
    · have hff : s.found = false := by simpa using hfound
      have hcl : ∀ c ∈ C, ∀ d, Neighbour c d → InRange n d → d ∈ C := by
        intro c hc d hn hd
        have := hI.closed c hc (Or.inr hff) d hn hd
        rwa [hVC] at this
      have := grid_connected (hVC ▸ hI.start) hs hcl _ c hc rfl
      exact List.ne_nil_of_mem ((hmem c).2 ⟨this, hcs⟩)
  · intro hss
    exact (hmem start).2 ⟨hVC ▸ hI.start, hss⟩

/-- All triangles of the search are triangles of `Process`. -/
theorem C87_sub (g : Index → K) (iso : K) (n : Nat) (start : Index) (hs : InRange n start) (fuel : Nat) (hf : n ^ 3 < fuel) :
    ∃ m m', singleSurface g iso n start fuel = some m ∧ process g iso (cells n) = some m' ∧ (∀ t ∈ m, t ∈ m') ∧
      (m = [] → m' = []) := by
  obtain ⟨m, C, h1, h2, -, h4, -, h6, -⟩ := C87_search g iso n start hs fuel hf
  rw [process_eq] at h2
  have h2 := Option.some.inj h2
  refine ⟨m, _, h1, process_eq g iso _, ?_, ?_⟩
  · intro t ht
    rw [← h2] at ht
    obtain ⟨c, hc, ht⟩ := List.mem_flatMap.1 ht
    exact List.mem_flatMap.2 ⟨c, (mem_cells n c).2 (h4 c hc).1, ht⟩
  · intro hm
    rw [List.flatMap_eq_nil_iff]
    intro c hc
    rw [cellTris_nil]
    intro hcs
    have hne := h6 ⟨c, (mem_cells n c).1 hc, hcs⟩
    obtain ⟨d, hd⟩ := List.exists_mem_of_ne_nil _ hne
    rw [hm, List.flatMap_eq_nil_iff] at h2
    exact (cellTris_nil g iso d).1 (h2 d hd) (h4 d hd).2

/-- The mesh of the search is closed if the grid points on the boundary are all on the same side. Proved for values such
that no two neighbouring grid points on different sides are both within 1e-5 of the level. -/
theorem C87_closed_partial (g : Index → K) (iso : K) (n : Nat) (start : Index) (hs : InRange n start) (fuel : Nat) (hf : n ^ 3 < fuel)
    (hb : SameBoundary g iso n) (ht : NoTies g iso n) : ∃ m, singleSurface g iso n start fuel = some m ∧ Closed m := by
  obtain ⟨m, C, h1, h2, h3, h4, h5, -, -⟩ := C87_search g iso n start hs fuel hf
  rw [process_eq] at h2
  refine ⟨m, h1, ?_⟩
  rw [← Option.some.inj h2]
  exact closed_of_complete ht hb C h3 (fun c hc => (h4 c hc).1) (fun c hc _ d hd hn hds => h5 c hc d hd hn hds)

/-- Two points above the level, far apart. -/
def peaks (c : Index) : ℚ := if c = (1, 1, 1) ∨ c = (5, 1, 1) then 1 else -1

/-- Where it should be one surface: the search may return two, here one on each side of the slab 2 ≤ x ≤ 4, which no triangle
enters. -/
theorem C87_single_false : ∃ m, singleSurface peaks 0 6 (2, 1, 1) 217 = some m ∧
    (∃ t ∈ m, ∀ v ∈ t.corners, v.1 < 2) ∧ (∃ t ∈ m, ∀ v ∈ t.corners, 4 < v.1) ∧
    ∀ t ∈ m, (∀ v ∈ t.corners, v.1 < 2) ∨ (∀ v ∈ t.corners, 4 < v.1) := by
  have h : ((singleSurface peaks 0 6 (2, 1, 1) 217).map fun m =>
      (m.any fun t => t.corners.all fun v => decide (v.1 < 2)) && (m.any fun t => t.corners.all fun v => decide (4 < v.1)) &&
      (m.all fun t => (t.corners.all fun v => decide (v.1 < 2)) || t.corners.all fun v => decide (4 < v.1))) = some true := by
    decide +kernel
  obtain ⟨m, hm, h⟩ := Option.map_eq_some_iff.1 h
  refine ⟨m, hm, ?_⟩
  simpa only [Bool.and_eq_true, List.any_eq_true, List.all_eq_true, decide_eq_true_eq, Bool.or_eq_true, and_assoc] using h

/-- The hypotheses are met: a peak found from another corner of the grid. -/
example : InRange (2 : Nat) (1, 1, 0) ∧ HasSurface peak 0 (1, 1, 0) ∧
    ∃ m, singleSurface peak 0 (2 : Nat) (1, 1, 0) 9 = some m ∧ Closed m ∧ m.length = 8 := by
  have hr : InRange (2 : Nat) (1, 1, 0) := by simp [InRange]
  refine ⟨hr, ⟨(1, 1, 1), (1, 1, 0), by simp [IsCorner], by simp [IsCorner], by norm_num [peak], by norm_num [peak]⟩, ?_⟩
  obtain ⟨m, h1, h2⟩ := C87_closed_partial peak 0 2 (1, 1, 0) hr 9 (by norm_num) peak_boundary (peak_noTies _)
  refine ⟨m, h1, h2, ?_⟩
  have h3 : (singleSurface peak 0 (2 : Nat) (1, 1, 0) 9).map List.length = some 8 := by decide +kernel
  rw [h1] at h3
  simpa using h3

end Simox.Mc
