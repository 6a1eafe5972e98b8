import Verif.Mc.SurfaceLemmas
import Mathlib.Data.List.Nodup

/-!
# Marching cubes, the whole grid: properties
-/

namespace Simox.Mc

set_option linter.unusedSectionVars false

variable {K : Type} [Field K] [LinearOrder K] [IsStrictOrderedRing K]

/-! ## Counting -/

/-- Counts a pair in one direction minus the other. -/
def pairWeight (a b p q : Pos K) : Int := (if p = a ∧ q = b then 1 else 0) - (if p = b ∧ q = a then 1 else 0)

theorem pairWeight_anti (a b : Pos K) : Anti (pairWeight a b) := by
  intro p q
  simp only [pairWeight, and_comm (a := q = a), and_comm (a := q = b)]
  ring

theorem wsum_pairWeight (a b : Pos K) (l : List (Pos K × Pos K)) :
    wsum (pairWeight a b) l = (l.count (a, b) : Int) - l.count (b, a) := by
  induction l with
  | nil => rfl
  | cons x l ih =>
    obtain ⟨p, q⟩ := x
    rw [wsum_cons, ih, List.count_cons, List.count_cons]
    simp only [pairWeight, beq_iff_eq, Prod.mk.injEq]
    push_cast
    ring

/-! ## The cells -/

theorem mem_cells (n : Nat) (c : Index) : c ∈ cells n ↔ InRange n c := by
  obtain ⟨x, y, z⟩ := c
  simp only [cells, List.mem_flatMap, List.mem_map, List.mem_range, InRange, Prod.mk.injEq]
  constructor
  · rintro ⟨i, hi, j, hj, k, hk, rfl, rfl, rfl⟩
    omega
  · rintro ⟨h1, h2, h3, h4, h5, h6⟩
    exact ⟨x.toNat, by omega, y.toNat, by omega, z.toNat, by omega, by omega, by omega, by omega⟩

theorem cells_nodup (n : Nat) : (cells n).Nodup := by
  rw [cells, List.nodup_flatMap]
  refine ⟨?_, ?_⟩
  · intro i _
    rw [List.nodup_flatMap]
    refine ⟨?_, ?_⟩
    · intro j _
      apply List.Nodup.map _ List.nodup_range
      intro a b h
      simpa using h
    · apply List.Pairwise.imp _ (List.nodup_range (n := n))
      intro a b hab c hc hd
      simp only [List.mem_map] at hc hd
      obtain ⟨k, _, rfl⟩ := hc
      obtain ⟨k', _, h⟩ := hd
      simp only [Prod.mk.injEq] at h
      exact hab (by omega)
  · apply List.Pairwise.imp _ (List.nodup_range (n := n))
    intro a b hab c hc hd
    simp only [List.mem_flatMap, List.mem_map] at hc hd
    obtain ⟨j, _, k, _, rfl⟩ := hc
    obtain ⟨j', _, k', _, h⟩ := hd
    simp only [Prod.mk.injEq] at h
    exact hab (by omega)

theorem process_eq (g : Index → K) (iso : K) : ∀ l : List Index,
    process g iso l = some (l.flatMap fun c => cellTris g iso c.1 c.2.1 c.2.2)
  | [] => rfl
  | (x, y, z) :: l => by
    rw [process, (cellFacts g iso x y z).poly, process_eq g iso l]
    rfl

/-! ## Faces -/

theorem wsum_zero {P : Type} {w : P → P → Int} {l : List (P × P)} (h : ∀ x ∈ l, w x.1 x.2 = 0) : wsum w l = 0 := by
  rw [wsum]
  apply List.sum_eq_zero
  intro v hv
  obtain ⟨x, hx, rfl⟩ := List.mem_map.1 hv
  exact h x hx

theorem segs_ne {b0 b1 b2 b3 : Bool} {w : Nat → Nat → Int} (h : wsum w (segs b0 b1 b2 b3) ≠ 0) :
    ¬ (b0 = b1 ∧ b1 = b2 ∧ b2 = b3) := by
  rintro ⟨rfl, rfl, rfl⟩
  rw [segs_same] at h
  exact h rfl

theorem surface_of_bits {g : Index → K} {iso : K} {x y z : Int} {i j k l : Nat} (hi : i < 8) (hj : j < 8) (hk : k < 8) (hl : l < 8)
    (h : ¬ (above g iso x y z i = above g iso x y z j ∧ above g iso x y z j = above g iso x y z k ∧
      above g iso x y z k = above g iso x y z l)) : HasSurface g iso (x, y, z) := by
  rw [hasSurface_iff, Ne, (cellFacts g iso x y z).empty]
  intro h'
  rw [h' i hi, h' j hj, h' k hk, h' l hl] at h
  exact h ⟨rfl, rfl, rfl⟩

theorem fX_surface {g : Index → K} {iso : K} {w : Pos K → Pos K → Int} {x y z : Int} (h : fX g iso w (x + 1) y z ≠ 0) :
    HasSurface g iso (x, y, z) ∧ HasSurface g iso (x + 1, y, z) := by
  have := segs_ne h
  refine ⟨?_, surface_of_bits (by decide) (by decide) (by decide) (by decide) this⟩
  exact surface_of_bits (i := 1) (j := 2) (k := 6) (l := 5) (by decide) (by decide) (by decide) (by decide) this

theorem fY_surface {g : Index → K} {iso : K} {w : Pos K → Pos K → Int} {x y z : Int} (h : fY g iso w x (y + 1) z ≠ 0) :
    HasSurface g iso (x, y, z) ∧ HasSurface g iso (x, y + 1, z) := by
  have := segs_ne h
  refine ⟨?_, surface_of_bits (by decide) (by decide) (by decide) (by decide) this⟩
  exact surface_of_bits (i := 3) (j := 2) (k := 6) (l := 7) (by decide) (by decide) (by decide) (by decide) this

theorem fZ_surface {g : Index → K} {iso : K} {w : Pos K → Pos K → Int} {x y z : Int} (h : fZ g iso w x y (z + 1) ≠ 0) :
    HasSurface g iso (x, y, z) ∧ HasSurface g iso (x, y, z + 1) := by
  have := segs_ne h
  refine ⟨?_, surface_of_bits (by decide) (by decide) (by decide) (by decide) this⟩
  exact surface_of_bits (i := 4) (j := 5) (k := 6) (l := 7) (by decide) (by decide) (by decide) (by decide) this

/-- A set of cells that contains with each cell of the surface its neighbours of the surface. -/
def Complete (g : Index → K) (iso : K) (n : Nat) (C : List Index) : Prop :=
  ∀ c ∈ C, HasSurface g iso c → ∀ d, InRange n d → Neighbour c d → HasSurface g iso d → d ∈ C

/-- The faces on the boundary. -/
theorem meshSum_complete {g : Index → K} {iso : K} {n : Nat} (h : NoTies g iso n) {w : Pos K → Pos K → Int} (hw : Anti w)
    (C : List Index) (hnd : C.Nodup) (hC : ∀ c ∈ C, InRange n c) (hcomp : Complete g iso n C)
    (bx : ∀ y z : Nat, y < n → z < n → fX g iso w 0 y z = 0 ∧ fX g iso w n y z = 0)
    (by' : ∀ x z : Nat, x < n → z < n → fY g iso w x 0 z = 0 ∧ fY g iso w x n z = 0)
    (bz : ∀ x y : Nat, x < n → y < n → fZ g iso w x y 0 = 0 ∧ fZ g iso w x y n = 0) :
    wsum w (meshSides (C.flatMap fun c => cellTris g iso c.1 c.2.1 c.2.2)) = 0 := by
  have key : ∀ c d : Index, InRange n c → InRange n d → Neighbour c d → HasSurface g iso c → HasSurface g iso d →
      (c ∈ C ↔ d ∈ C) := fun c d hc hd hn h1 h2 =>
    ⟨fun hm => hcomp c hm h1 d hd hn h2, fun hm => hcomp d hm h2 c hc (neighbour_symm hn) h1⟩
  apply meshSum h hw C hnd hC bx by' bz
  · intro x y z hx hy hz hne
    obtain ⟨h1, h2⟩ := fX_surface hne
    exact key _ _ (by simp only [InRange]; omega) (by simp only [InRange]; omega) (by simp [Neighbour]) h1 h2
  · intro x y z hx hy hz hne
    obtain ⟨h1, h2⟩ := fY_surface hne
    exact key _ _ (by simp only [InRange]; omega) (by simp only [InRange]; omega) (by simp [Neighbour]) h1 h2
  · intro x y z hx hy hz hne
    obtain ⟨h1, h2⟩ := fZ_surface hne
    exact key _ _ (by simp only [InRange]; omega) (by simp only [InRange]; omega) (by simp [Neighbour]) h1 h2

/-- All grid points on the boundary are on the same side of the level. -/
def SameBoundary (g : Index → K) (iso : K) (n : Nat) : Prop :=
  (∀ p, InRange (n + 1) p → OnBoundary n p → iso < g p) ∨ (∀ p, InRange (n + 1) p → OnBoundary n p → g p ≤ iso)

theorem same_above {g : Index → K} {iso : K} {n : Nat} (h : SameBoundary g iso n) :
    ∃ s : Bool, ∀ p, InRange (n + 1) p → OnBoundary n p → decide (iso < g p) = s := by
  rcases h with h | h
  · exact ⟨true, fun p h1 h2 => by simp [h p h1 h2]⟩
  · exact ⟨false, fun p h1 h2 => by simp [h p h1 h2]⟩

theorem closed_of_complete {g : Index → K} {iso : K} {n : Nat} (h : NoTies g iso n) (hb : SameBoundary g iso n)
    (C : List Index) (hnd : C.Nodup) (hC : ∀ c ∈ C, InRange n c) (hcomp : Complete g iso n C) :
    Closed (C.flatMap fun c => cellTris g iso c.1 c.2.1 c.2.2) := by
  intro a b
  obtain ⟨s, hs⟩ := same_above hb
  have hz : ∀ (w : Nat → Nat → Int) (p0 p1 p2 p3 : Index), InRange (n + 1) p0 → InRange (n + 1) p1 → InRange (n + 1) p2 →
      InRange (n + 1) p3 → OnBoundary n p0 → OnBoundary n p1 → OnBoundary n p2 → OnBoundary n p3 →
      wsum w (segs (decide (iso < g p0)) (decide (iso < g p1)) (decide (iso < g p2)) (decide (iso < g p3))) = 0 := by
    intro w p0 p1 p2 p3 a0 a1 a2 a3 b0 b1 b2 b3
    rw [hs p0 a0 b0, hs p1 a1 b1, hs p2 a2 b2, hs p3 a3 b3, segs_same]; rfl
  have := meshSum_complete h (pairWeight_anti a b) C hnd hC hcomp
    (fun y z hy hz' => ⟨by
      apply hz _ (0, (y : Int), (z : Int)) (0, (y : Int) + 1, (z : Int)) (0, (y : Int) + 1, (z : Int) + 1) (0, (y : Int), (z : Int) + 1) <;>
        first | (simp only [InRange]; omega) | simp [OnBoundary], by
      apply hz _ (n, (y : Int), (z : Int)) (n, (y : Int) + 1, (z : Int)) (n, (y : Int) + 1, (z : Int) + 1) (n, (y : Int), (z : Int) + 1) <;>
        first | (simp only [InRange]; omega) | simp [OnBoundary]⟩)
    (fun x z hx hz' => ⟨by
      apply hz _ ((x : Int), 0, (z : Int)) ((x : Int) + 1, 0, (z : Int)) ((x : Int) + 1, 0, (z : Int) + 1) ((x : Int), 0, (z : Int) + 1) <;>
        first | (simp only [InRange]; omega) | simp [OnBoundary], by
      apply hz _ ((x : Int), n, (z : Int)) ((x : Int) + 1, n, (z : Int)) ((x : Int) + 1, n, (z : Int) + 1) ((x : Int), n, (z : Int) + 1) <;>
        first | (simp only [InRange]; omega) | simp [OnBoundary]⟩)
    (fun x y hx hy => ⟨by
      apply hz _ ((x : Int), (y : Int), 0) ((x : Int) + 1, (y : Int), 0) ((x : Int) + 1, (y : Int) + 1, 0) ((x : Int), (y : Int) + 1, 0) <;>
        first | (simp only [InRange]; omega) | simp [OnBoundary], by
      apply hz _ ((x : Int), (y : Int), n) ((x : Int) + 1, (y : Int), n) ((x : Int) + 1, (y : Int) + 1, n) ((x : Int), (y : Int) + 1, n) <;>
        first | (simp only [InRange]; omega) | simp [OnBoundary]⟩)
  rw [wsum_pairWeight] at this
  omega

/-! ## Sides on the boundary -/

/-- Both points are in the same boundary plane of the grid. -/
def CommonBoundary (n : Nat) (a b : Pos K) : Prop :=
  (a.1 = 0 ∧ b.1 = 0) ∨ (a.1 = n ∧ b.1 = n) ∨ (a.2.1 = 0 ∧ b.2.1 = 0) ∨ (a.2.1 = n ∧ b.2.1 = n) ∨
  (a.2.2 = 0 ∧ b.2.2 = 0) ∨ (a.2.2 = n ∧ b.2.2 = n)

theorem interp_x {iso a b c : K} {p q : Pos K} (h1 : p.1 = c) (h2 : q.1 = c) : (vertexInterp iso p q a b).1 = c := by
  rw [vertexInterp]
  split; exact h1
  split; exact h2
  split; exact h1
  simp [h1, h2]
theorem interp_y {iso a b c : K} {p q : Pos K} (h1 : p.2.1 = c) (h2 : q.2.1 = c) : (vertexInterp iso p q a b).2.1 = c := by
  rw [vertexInterp]
  split; exact h1
  split; exact h2
  split; exact h1
  simp [h1, h2]
theorem interp_z {iso a b c : K} {p q : Pos K} (h1 : p.2.2 = c) (h2 : q.2.2 = c) : (vertexInterp iso p q a b).2.2 = c := by
  rw [vertexInterp]
  split; exact h1
  split; exact h2
  split; exact h1
  simp [h1, h2]

theorem face_x (g : Index → K) (iso : K) (x y z : Int) (p : Nat) : (edgePoint g iso x y z (sideXm p)).1 = (x : K) := by
  unfold sideXm; split <;> exact interp_x rfl rfl
theorem face_y (g : Index → K) (iso : K) (x y z : Int) (p : Nat) : (edgePoint g iso x y z (sideYm p)).2.1 = (y : K) := by
  unfold sideYm; split <;> exact interp_y rfl rfl
theorem face_z (g : Index → K) (iso : K) (x y z : Int) (p : Nat) : (edgePoint g iso x y z (sideZm p)).2.2 = (z : K) := by
  unfold sideZm; split <;> exact interp_z rfl rfl

theorem pairWeight_boundary {n : Nat} {a b p q : Pos K} (h : ¬ CommonBoundary n a b) (hpq : CommonBoundary n p q) :
    pairWeight a b p q = 0 := by
  have h1 : ¬ (p = a ∧ q = b) := by rintro ⟨rfl, rfl⟩; exact h hpq
  have h2 : ¬ (p = b ∧ q = a) := by
    rintro ⟨rfl, rfl⟩
    apply h
    rcases hpq with h | h | h | h | h | h
    · exact Or.inl h.symm
    · exact Or.inr (Or.inl h.symm)
    · exact Or.inr (Or.inr (Or.inl h.symm))
    · exact Or.inr (Or.inr (Or.inr (Or.inl h.symm)))
    · exact Or.inr (Or.inr (Or.inr (Or.inr (Or.inl h.symm))))
    · exact Or.inr (Or.inr (Or.inr (Or.inr (Or.inr h.symm))))
  simp [pairWeight, h1, h2]

theorem open_of_complete {g : Index → K} {iso : K} {n : Nat} (h : NoTies g iso n)
    (C : List Index) (hnd : C.Nodup) (hC : ∀ c ∈ C, InRange n c) (hcomp : Complete g iso n C) (a b : Pos K)
    (hab : ¬ CommonBoundary n a b) :
    (meshSides (C.flatMap fun c => cellTris g iso c.1 c.2.1 c.2.2)).count (a, b) =
      (meshSides (C.flatMap fun c => cellTris g iso c.1 c.2.1 c.2.2)).count (b, a) := by
  have := meshSum_complete h (pairWeight_anti a b) C hnd hC hcomp
    (fun y z _ _ => ⟨wsum_zero fun s _ => pairWeight_boundary hab (Or.inl ⟨by simpa using face_x g iso 0 y z _, by simpa using face_x g iso 0 y z _⟩),
      wsum_zero fun s _ => pairWeight_boundary hab (Or.inr (Or.inl ⟨by simpa using face_x g iso n y z _, by simpa using face_x g iso n y z _⟩))⟩)
    (fun x z _ _ => ⟨wsum_zero fun s _ => pairWeight_boundary hab (Or.inr (Or.inr (Or.inl ⟨by simpa using face_y g iso x 0 z _, by simpa using face_y g iso x 0 z _⟩))),
      wsum_zero fun s _ => pairWeight_boundary hab (Or.inr (Or.inr (Or.inr (Or.inl ⟨by simpa using face_y g iso x n z _, by simpa using face_y g iso x n z _⟩))))⟩)
    (fun x y _ _ => ⟨wsum_zero fun s _ => pairWeight_boundary hab (Or.inr (Or.inr (Or.inr (Or.inr (Or.inl ⟨by simpa using face_z g iso x y 0 _, by simpa using face_z g iso x y 0 _⟩))))),
      wsum_zero fun s _ => pairWeight_boundary hab (Or.inr (Or.inr (Or.inr (Or.inr (Or.inr ⟨by simpa using face_z g iso x y n _, by simpa using face_z g iso x y n _⟩)))))⟩)
  rw [wsum_pairWeight] at this
  omega

/-! ## Process -/

theorem complete_cells (g : Index → K) (iso : K) (n : Nat) : Complete g iso n (cells n) :=
  fun _ _ _ d hd _ _ => (mem_cells n d).2 hd

/-- `Process` on a grid of any size never fails. Its triangles are those of the cells: every corner of a triangle is on an edge of the grid
between points on different sides, where the interpolated value is within 1e-5 of the level, and every such edge has
a corner. -/
theorem C86_process (g : Index → K) (iso : K) (n : Nat) :
    ∃ m, process g iso (cells n) = some m ∧
      (∀ t ∈ m, ∀ v ∈ t.corners, ∃ p q mu, InRange (n + 1) p ∧ InRange (n + 1) q ∧ Neighbour p q ∧ iso < g p ∧ g q ≤ iso ∧
        0 ≤ mu ∧ mu ≤ 1 ∧ v = between (toPos p) (toPos q) mu ∧ |g p + mu * (g q - g p) - iso| < 1 / 100000) ∧
      (0 < n → ∀ p q, InRange (n + 1) p → InRange (n + 1) q → Neighbour p q → iso < g p → g q ≤ iso →
        ∃ t ∈ m, ∃ v ∈ t.corners, ∃ mu, 0 ≤ mu ∧ mu ≤ 1 ∧ v = between (toPos p) (toPos q) mu ∧
          |g p + mu * (g q - g p) - iso| < 1 / 100000) := by
  refine ⟨_, process_eq g iso (cells n), ?_, ?_⟩
  · intro t ht v hv
    obtain ⟨⟨x, y, z⟩, hc, ht⟩ := List.mem_flatMap.1 ht
    obtain ⟨ts, h1, -, -, h4, -⟩ := C85_cell g iso x y z
    rw [(cellFacts g iso x y z).poly] at h1
    obtain ⟨p, q, mu, k1, k2, k3⟩ := h4 t (Option.some.inj h1 ▸ ht) v hv
    have hr := (mem_cells n _).1 hc
    refine ⟨p, q, mu, ?_, ?_, k3⟩
    · simp only [InRange, IsCorner] at hr k1 ⊢; omega
    · simp only [InRange, IsCorner] at hr k2 ⊢; omega
  · intro hn p q hp hq hpq h1 h2
    have hcell : ∃ c : Index, InRange n c ∧ IsCorner c p ∧ IsCorner c q := by
      refine ⟨(min (min p.1 q.1) (n - 1), min (min p.2.1 q.2.1) (n - 1), min (min p.2.2 q.2.2) (n - 1)), ?_, ?_, ?_⟩
      · simp only [InRange] at hp hq ⊢; omega
      · simp only [InRange, IsCorner, Neighbour] at hp hq hpq ⊢; omega
      · simp only [InRange, IsCorner, Neighbour] at hp hq hpq ⊢; omega
    obtain ⟨⟨x, y, z⟩, hr, c1, c2⟩ := hcell
    obtain ⟨ts, k1, -, -, -, k5⟩ := C85_cell g iso x y z
    rw [(cellFacts g iso x y z).poly] at k1
    obtain ⟨t, ht, rest⟩ := k5 p q c1 c2 hpq h1 h2
    refine ⟨t, List.mem_flatMap.2 ⟨(x, y, z), (mem_cells n _).2 hr, ?_⟩, rest⟩
    rw [← Option.some.inj k1] at ht
    exact ht

/-- If the grid points on the boundary are all on the same side, the mesh is closed: every side of a triangle occurs as
often in one direction as in the other. Proved for values such that no two neighbouring grid points on different sides
are both within 1e-5 of the level. -/
theorem C86_closed_partial (g : Index → K) (iso : K) (n : Nat) (hb : SameBoundary g iso n) (ht : NoTies g iso n) :
    ∃ m, process g iso (cells n) = some m ∧ Closed m :=
  ⟨_, process_eq g iso (cells n), closed_of_complete ht hb _ (cells_nodup n) (fun c hc => (mem_cells n c).1 hc)
    (complete_cells g iso n)⟩

/-- Without a condition on the boundary: sides that are not matched are in the boundary of the grid. -/
theorem C86_holes_partial (g : Index → K) (iso : K) (n : Nat) (ht : NoTies g iso n) :
    ∃ m, process g iso (cells n) = some m ∧
      ∀ a b, ¬ CommonBoundary n a b → (meshSides m).count (a, b) = (meshSides m).count (b, a) :=
  ⟨_, process_eq g iso (cells n), fun a b hab => open_of_complete ht _ (cells_nodup n) (fun c hc => (mem_cells n c).1 hc)
    (complete_cells g iso n) a b hab⟩

/-- A grid with values near the level: 5e-6 above it at the middle, 5e-6 below elsewhere. -/
def tieGrid (c : Index) : ℚ := if c = (1, 1, 1) then 1 / 200000 else -1 / 200000

/-- Where neighbouring values on different sides are both within 1e-5 of the level, the mesh may have holes. -/
theorem C86_closed_false : SameBoundary tieGrid 0 2 ∧ ∃ m, process tieGrid 0 (cells 2) = some m ∧ ¬ Closed m := by
  refine ⟨Or.inr ?_, _, process_eq _ _ _, ?_⟩
  · intro p _ hb
    have : p ≠ (1, 1, 1) := by
      rintro rfl
      simp [OnBoundary] at hb
    rw [tieGrid, if_neg this]
    norm_num
  · intro h
    have h1 := h (1, 1, 1) (0, 1, 1)
    revert h1
    decide +kernel

/-- One point above the level. -/
def peak (c : Index) : ℚ := if c = (1, 1, 1) then 1 else -1

theorem peak_boundary : SameBoundary peak 0 2 := by
  refine Or.inr ?_
  intro p _ hb
  have : p ≠ (1, 1, 1) := by
    rintro rfl
    simp [OnBoundary] at hb
  rw [peak, if_neg this]
  norm_num

theorem peak_noTies (n : Int) : NoTies peak 0 n := by
  intro p q _ _ _ h1 _
  left
  rw [peak] at h1 ⊢
  by_cases hp : p = (1, 1, 1)
  · rw [if_pos hp]; norm_num
  · rw [if_neg hp] at h1; norm_num at h1

/-- The hypotheses are met: one point inside. -/
example : ∃ m, process peak 0 (cells 2) = some m ∧ Closed m ∧ m.length = 8 := by
  obtain ⟨m, h1, h2⟩ := C86_closed_partial peak 0 2 peak_boundary (peak_noTies 2)
  refine ⟨m, h1, h2, ?_⟩
  have h3 : (process peak 0 (cells 2)).map List.length = some 8 := by decide +kernel
  rw [h1] at h3
  simpa using h3

end Simox.Mc
