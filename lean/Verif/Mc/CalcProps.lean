import Verif.Mc.SearchProps
import Mathlib.Data.List.Perm.Basic
import Mathlib.Data.Rat.Floor

/-!
# Marching cubes over a model: properties
-/

namespace Simox.Mc

set_option linter.unusedSectionVars false

variable {K : Type} [Field K] [LinearOrder K] [IsStrictOrderedRing K]

/-- Where the grid point with index `i` is in space: the middle of the grid is at `center`. -/
def gridPoint (center : Pos K) (steps : Nat) (stepLength : K) (i : Index) : Pos K :=
  (center.1 + ((i.1 : K) - steps) * stepLength, center.2.1 + ((i.2.1 : K) - steps) * stepLength,
    center.2.2 + ((i.2.2 : K) - steps) * stepLength)

/-- The point is inside the cube around `center`. -/
def InCube (center : Pos K) (r : K) (p : Pos K) : Prop :=
  |p.1 - center.1| < r ∧ |p.2.1 - center.2.1| < r ∧ |p.2.2 - center.2.2| < r

theorem sampled_eq (center : Pos K) (steps : Nat) (l : K) (model : Pos K → K) (i : Index) :
    sampled center steps l model i = model (gridPoint center steps l i) := by
  simp only [sampled, gridPoint, add_comm]

/-- Shift and scale of a point. -/
def place (center : Pos K) (steps : Nat) (l : K) (p : Pos K) : Pos K :=
  (p.1 * l + (-1 * l * steps + center.1), p.2.1 * l + (-1 * l * steps + center.2.1), p.2.2 * l + (-1 * l * steps + center.2.2))

theorem place_between (center : Pos K) (steps : Nat) (l : K) (p q : Index) (mu : K) :
    place center steps l (between (toPos p) (toPos q) mu) = between (gridPoint center steps l p) (gridPoint center steps l q) mu := by
  simp only [place, between, toPos, gridPoint, Prod.mk.injEq]
  refine ⟨?_, ?_, ?_⟩ <;> ring

theorem transform_eq (center : Pos K) (steps : Nat) (l : K) (t : Tri K) :
    t.transform (-1 * l * steps + center.1, -1 * l * steps + center.2.1, -1 * l * steps + center.2.2) l =
      ⟨place center steps l t.p1, place center steps l t.p2, place center steps l t.p3⟩ := rfl

theorem trunc_range [FloorRing K] {x : K} {n : Nat} (h : |x| < n) : 0 ≤ truncTo x + n ∧ truncTo x + n < 2 * n := by
  obtain ⟨h1, h2⟩ := abs_lt.1 h
  rw [truncTo]
  by_cases hx : x < 0
  · rw [if_pos hx]
    have h3 : (⌈x⌉ : Int) ≤ 0 := Int.ceil_le.2 (by simpa using hx.le)
    have h4 : -(n : Int) < ⌈x⌉ := Int.lt_ceil.2 (by simpa using h1)
    omega
  · rw [if_neg hx]
    push Not at hx
    have h3 : (0 : Int) ≤ ⌊x⌋ := Int.floor_nonneg.2 hx
    have h4 : ⌊x⌋ < (n : Int) := Int.floor_lt.2 (by simpa using h2)
    omega

theorem start_range [FloorRing K] {center start : Pos K} {steps : Nat} {l : K} (hl : 0 < l) (h : InCube center (steps * l) start) :
    InRange ((2 * steps : Nat) : Int) (startIndex center start steps l) := by
  have key : ∀ a : K, |a| < steps * l → |a / l| < steps := by
    intro a ha
    rw [abs_div, abs_of_pos hl, div_lt_iff₀ hl]; exact ha
  obtain ⟨h1, h2, h3⟩ := h
  have k1 := trunc_range (key _ h1)
  have k2 := trunc_range (key _ h2)
  have k3 := trunc_range (key _ h3)
  simp only [InRange, startIndex]
  push_cast
  exact ⟨k1.1, k1.2, k2.1, k2.2, k3.1, k3.2⟩

theorem calculate_eq [FloorRing K] (center start : Pos K) (steps : Nat) (l : K) (model : Pos K → K) (iso : K) (fuel : Nat) :
    calculate center start steps l model iso fuel =
      (singleSurface (fun i => model (gridPoint center steps l i)) iso ((2 * steps : Nat) : Int) (startIndex center start steps l) fuel).map
        fun ts => ts.map fun t => ⟨place center steps l t.p1, place center steps l t.p2, place center steps l t.p3⟩ := by
  have h : sampled center steps l model = fun i => model (gridPoint center steps l i) := funext fun i => sampled_eq _ _ _ _ _
  rw [calculate, h]
  push_cast
  rfl

/-- `Calculate` from a start strictly inside the cube of half width steps·stepLength around the center never fails. Every corner of
its triangles is on the way between two neighbouring sample points at which the model is on different sides of the level, where
the interpolated value is within 1e-5 of the level. If any two neighbouring sample points are on different sides, the
result is not empty. -/
theorem C88_calculate [FloorRing K] (center start : Pos K) (steps : Nat) (l : K) (model : Pos K → K) (iso : K) (fuel : Nat)
    (hl : 0 < l) (hs : InCube center (steps * l) start) (hf : (2 * steps) ^ 3 < fuel) :
    ∃ m, calculate center start steps l model iso fuel = some m ∧
      (∀ t ∈ m, ∀ v ∈ t.corners, ∃ p q mu, InRange (2 * steps + 1) p ∧ InRange (2 * steps + 1) q ∧ Neighbour p q ∧
        iso < model (gridPoint center steps l p) ∧ model (gridPoint center steps l q) ≤ iso ∧ 0 ≤ mu ∧ mu ≤ 1 ∧
        v = between (gridPoint center steps l p) (gridPoint center steps l q) mu ∧
        |model (gridPoint center steps l p) + mu * (model (gridPoint center steps l q) - model (gridPoint center steps l p)) - iso| < 1 / 100000) ∧
      ((∃ p q, InRange (2 * steps + 1) p ∧ InRange (2 * steps + 1) q ∧ Neighbour p q ∧
        iso < model (gridPoint center steps l p) ∧ model (gridPoint center steps l q) ≤ iso) → m ≠ []) := by
  have hr := start_range hl hs
  obtain ⟨m, m', h1, h2, h3, h4⟩ := C87_sub (fun i => model (gridPoint center steps l i)) iso (2 * steps) _ hr fuel hf
  obtain ⟨m'', k1, k2, k3⟩ := C86_process (fun i => model (gridPoint center steps l i)) iso (2 * steps)
  rw [h2] at k1
  have k1 := Option.some.inj k1
  subst k1
  refine ⟨_, by rw [calculate_eq, h1]; rfl, ?_, ?_⟩
  · intro t ht v hv
    obtain ⟨t', ht', rfl⟩ := List.mem_map.1 ht
    have hv' : ∃ v' ∈ t'.corners, v = place center steps l v' := by
      simp only [Tri.corners, List.mem_cons, List.not_mem_nil, or_false] at hv ⊢
      rcases hv with h | h | h
      · exact ⟨_, Or.inl rfl, h⟩
      · exact ⟨_, Or.inr (Or.inl rfl), h⟩
      · exact ⟨_, Or.inr (Or.inr rfl), h⟩
    obtain ⟨v', hv', rfl⟩ := hv'
    obtain ⟨p, q, mu, a1, a2, a3, a4, a5, a6, a7, a8, a9⟩ := k2 t' (h3 t' ht') v' hv'
    refine ⟨p, q, mu, by push_cast at a1; exact a1, by push_cast at a2; exact a2, a3, a4, a5, a6, a7, ?_, a9⟩
    rw [a8, place_between]
  · rintro ⟨p, q, a1, a2, a3, a4, a5⟩ hm
    have hm : m = [] := by simpa using hm
    have hpos : 0 < 2 * steps := by
      simp only [InRange, Neighbour] at a1 a2 a3
      omega
    obtain ⟨t, ht, -⟩ := k3 hpos p q (by push_cast; exact a1) (by push_cast; exact a2) a3 a4 a5
    rw [h4 hm] at ht
    simp at ht

theorem closed_map {m : List (Tri K)} (h : Closed m) (f : Pos K → Pos K) : Closed (m.map fun t => ⟨f t.p1, f t.p2, f t.p3⟩) := by
  have hs : meshSides (m.map fun t => ⟨f t.p1, f t.p2, f t.p3⟩) = (meshSides m).map fun s => (f s.1, f s.2) := by
    simp only [meshSides, List.flatMap_map, List.map_flatMap]
    rfl
  have hswap : ∀ l : List (Pos K × Pos K), (∀ a b, l.count (a, b) = l.count (b, a)) ↔ (l.map Prod.swap).Perm l := by
    intro l
    have hc : ∀ a b, (l.map Prod.swap).count (a, b) = l.count (b, a) := by
      intro a b
      have := List.count_map_of_injective l Prod.swap Prod.swap_injective (b, a)
      simpa using this
    rw [List.perm_iff_count]
    constructor
    · rintro h ⟨a, b⟩
      rw [hc, h]
    · intro h a b
      rw [← h (a, b), hc]
  intro a b
  revert a b
  rw [hs, hswap]
  have := ((hswap _).1 h).map fun s => (f s.1, f s.2)
  rw [List.map_map] at this ⊢
  exact this

/-- The mesh of `Calculate` is closed if the model is on one side at all sample points of the boundary. Proved for
models such that no two neighbouring sample points on different sides are both within 1e-5 of the level. -/
theorem C88_closed_partial [FloorRing K] (center start : Pos K) (steps : Nat) (l : K) (model : Pos K → K) (iso : K) (fuel : Nat)
    (hl : 0 < l) (hs : InCube center (steps * l) start) (hf : (2 * steps) ^ 3 < fuel)
    (hb : SameBoundary (fun i => model (gridPoint center steps l i)) iso (2 * steps))
    (ht : NoTies (fun i => model (gridPoint center steps l i)) iso ((2 * steps : Nat) : Int)) :
    ∃ m, calculate center start steps l model iso fuel = some m ∧ Closed m := by
  obtain ⟨m, h1, h2⟩ := C87_closed_partial _ iso (2 * steps) _ (start_range hl hs) fuel hf hb ht
  exact ⟨_, by rw [calculate_eq, h1]; rfl, closed_map h2 (place center steps l)⟩

/-- A start on the upper side of the cube is not in a cell: `Calculate` leaves the grid. -/
theorem C88_border_false : ∃ (center start : Pos ℚ) (steps : Nat) (l : ℚ), 0 < l ∧
    |start.1 - center.1| ≤ steps * l ∧ |start.2.1 - center.2.1| ≤ steps * l ∧ |start.2.2 - center.2.2| ≤ steps * l ∧
    ∀ model iso fuel, calculate center start steps l model iso fuel = none := by
  refine ⟨(0, 0, 0), (1, 0, 0), 1, 1, by norm_num, by norm_num, by norm_num, by norm_num, ?_⟩
  intro model iso fuel
  have : startIndex ((0, 0, 0) : Pos ℚ) (1, 0, 0) 1 1 = (2, 1, 1) := by
    norm_num [startIndex, truncTo]
  rw [calculate, this, singleSurface, if_pos (by simp [isValidIndex])]
  rfl

/-- A ball of radius 3/2. -/
def ball (p : Pos ℚ) : ℚ := 9 / 4 - (p.1 * p.1 + p.2.1 * p.2.1 + p.2.2 * p.2.2)

/-- The hypotheses are met: a ball at the origin. -/
example : InCube ((0, 0, 0) : Pos ℚ) ((2 : Nat) * 1) (1 / 2, 0, 0) ∧
    ∃ m, calculate ((0, 0, 0) : Pos ℚ) (1 / 2, 0, 0) 2 1 ball 0 65 = some m ∧ m ≠ [] := by
  have hc : InCube ((0, 0, 0) : Pos ℚ) ((2 : Nat) * 1) (1 / 2, 0, 0) := by
    refine ⟨?_, ?_, ?_⟩ <;> norm_num [abs_lt]
  refine ⟨hc, ?_⟩
  obtain ⟨m, h1, -, h3⟩ := C88_calculate (0, 0, 0) (1 / 2, 0, 0) 2 1 ball 0 65 (by norm_num) hc (by norm_num)
  refine ⟨m, h1, h3 ⟨(3, 2, 2), (4, 2, 2), by simp [InRange], by simp [InRange], by simp [Neighbour], ?_, ?_⟩⟩
  · norm_num [ball, gridPoint]
  · norm_num [ball, gridPoint]

end Simox.Mc
