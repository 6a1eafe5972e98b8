import Verif.Rfn.Spec
import Mathlib.Tactic.Linarith
import Mathlib.Tactic.Ring
import Mathlib.Tactic.FieldSimp
import Mathlib.Tactic.NormNum
import Mathlib.Tactic.Module
import Mathlib.Data.List.Perm.Basic
import Mathlib.Algebra.BigOperators.Group.List.Basic

namespace Simox.Rfn

open Classical

/-- The square of the distance. -/
def sq3 (x y : V3) : ℝ := (x 0 - y 0) ^ 2 + (x 1 - y 1) ^ 2 + (x 2 - y 2) ^ 2

theorem sq3_nonneg (x y : V3) : 0 ≤ sq3 x y := by unfold sq3; positivity

theorem norm3_sub (x y : V3) : norm3 (x - y) = dist3 x y := by
  unfold norm3 dist3
  congr 1
  simp only [Pi.sub_apply]
  ring

theorem dist3_sq (x y : V3) : dist3 x y ^ 2 = sq3 x y := Real.sq_sqrt (sq3_nonneg x y)

theorem dist3_nonneg (x y : V3) : 0 ≤ dist3 x y := Real.sqrt_nonneg _

theorem dist3_symm (x y : V3) : dist3 x y = dist3 y x := by
  unfold dist3; congr 1; ring

theorem dist3_le {x y z w : V3} : dist3 x y ≤ dist3 z w ↔ sq3 x y ≤ sq3 z w :=
  ⟨fun h => Real.sqrt_le_sqrt_iff (sq3_nonneg z w) |>.mp h, fun h => Real.sqrt_le_sqrt h⟩

theorem lt_dist3 {d : ℝ} (hd : 0 ≤ d) {x y : V3} : d < dist3 x y ↔ d ^ 2 < sq3 x y := by
  rw [← dist3_sq]
  exact ⟨fun h => pow_lt_pow_left₀ h hd two_ne_zero, fun h => lt_of_pow_lt_pow_left₀ 2 (dist3_nonneg _ _) h⟩

/-- The middle. -/
noncomputable def mid (x y : V3) : V3 := x + (1 / 2 : ℝ) • (y - x)

theorem mid_comm (x y : V3) : mid x y = mid y x := by unfold mid; module

theorem sq3_mid_left (x y : V3) : sq3 x (mid x y) = sq3 x y / 4 := by
  unfold sq3 mid
  simp only [Pi.add_apply, Pi.smul_apply, Pi.sub_apply, smul_eq_mul]
  ring

theorem sq3_symm (x y : V3) : sq3 x y = sq3 y x := by unfold sq3; ring

theorem sq3_mid_right (x y : V3) : sq3 (mid x y) y = sq3 x y / 4 := by
  rw [mid_comm, sq3_symm, sq3_mid_left, sq3_symm]

theorem sq3_median (x y z : V3) : sq3 z (mid x y) = sq3 z x / 2 + sq3 z y / 2 - sq3 x y / 4 := by
  unfold sq3 mid
  simp only [Pi.add_apply, Pi.smul_apply, Pi.sub_apply, smul_eq_mul]
  ring

/-- The two halves of a triangle: first the one that stays in its place. -/
inductive Halves : Tri → Tri → Tri → Prop where
  | ab (t : Tri) (h1 : sq3 t.b t.c ≤ sq3 t.a t.b) (h2 : sq3 t.a t.c ≤ sq3 t.a t.b) :
      Halves t ⟨t.a, mid t.a t.b, t.c, t.normal⟩ ⟨mid t.a t.b, t.b, t.c, t.normal⟩
  | bc (t : Tri) (h1 : sq3 t.a t.b ≤ sq3 t.b t.c) (h2 : sq3 t.a t.c ≤ sq3 t.b t.c) :
      Halves t ⟨t.a, t.b, mid t.b t.c, t.normal⟩ ⟨t.a, mid t.b t.c, t.c, t.normal⟩
  | ca (t : Tri) (h1 : sq3 t.a t.b ≤ sq3 t.a t.c) (h2 : sq3 t.b t.c ≤ sq3 t.a t.c) :
      Halves t ⟨mid t.c t.a, t.b, t.c, t.normal⟩ ⟨t.a, t.b, mid t.c t.a, t.normal⟩

/-- Some edge is longer. -/
def Long (d : ℝ) (t : Tri) : Prop := dist3 t.a t.b > d ∨ dist3 t.b t.c > d ∨ dist3 t.a t.c > d

/-- The triangles that halving a triangle again and again makes. -/
inductive Cut (d : ℝ) : Tri → List Tri → Prop where
  | leaf (t : Tri) (h : ¬ Long d t) : Cut d t [t]
  | node (t x y : Tri) (l k r : List Tri) (h : Long d t) (hh : Halves t x y) (hx : Cut d x l) (hy : Cut d y k)
      (hr : r.Perm (l ++ k)) : Cut d t r

/-- The sum of the squares of the edges. -/
def pot (t : Tri) : ℝ := sq3 t.a t.b + sq3 t.b t.c + sq3 t.a t.c

theorem pot_halves {d : ℝ} (hd : 0 ≤ d) {t x y : Tri} (h : Halves t x y) (hl : Long d t) :
    pot x ≤ pot t - d ^ 2 / 2 ∧ pot y ≤ pot t - d ^ 2 / 2 := by
  unfold Long at hl
  rw [gt_iff_lt, gt_iff_lt, gt_iff_lt, lt_dist3 hd, lt_dist3 hd, lt_dist3 hd] at hl
  have n1 := sq3_nonneg t.a t.b
  have n2 := sq3_nonneg t.b t.c
  have n3 := sq3_nonneg t.a t.c
  cases h with
  | ab h1 h2 =>
    have hm := sq3_median t.a t.b t.c
    rw [sq3_symm t.c t.a, sq3_symm t.c t.b] at hm
    have hd2 : d ^ 2 < sq3 t.a t.b := by rcases hl with g | g | g <;> linarith
    unfold pot
    dsimp only
    rw [sq3_mid_left, sq3_mid_right, sq3_symm (mid t.a t.b) t.c, hm]
    constructor <;> linarith
  | bc h1 h2 =>
    have hm := sq3_median t.b t.c t.a
    have hd2 : d ^ 2 < sq3 t.b t.c := by rcases hl with g | g | g <;> linarith
    unfold pot
    dsimp only
    rw [sq3_mid_left, sq3_mid_right, hm]
    constructor <;> linarith
  | ca h1 h2 =>
    have hm := sq3_median t.c t.a t.b
    rw [sq3_symm t.b t.a, sq3_symm t.c t.a] at hm
    have hd2 : d ^ 2 < sq3 t.a t.c := by rcases hl with g | g | g <;> linarith
    have e1 := sq3_mid_left t.c t.a
    have e2 := sq3_mid_right t.c t.a
    rw [sq3_symm t.c t.a] at e1 e2
    unfold pot
    dsimp only
    rw [sq3_symm (mid t.c t.a) t.b, sq3_symm (mid t.c t.a) t.c, sq3_symm t.a (mid t.c t.a), hm, e1, e2]
    constructor <;> linarith

/-! ## What the pieces are -/

theorem halves_points {t x y : Tri} (h : Halves t x y) (p : V3) :
    p ∈ t.points ↔ p ∈ x.points ∨ p ∈ y.points := by
  cases h with
  | ab h1 h2 =>
    constructor
    · rintro ⟨u, v, w, hu, hv, hw, hs, rfl⟩
      rcases le_total v u with g | g
      · exact .inl ⟨u - v, 2 * v, w, by linarith, by linarith, hw, by linarith, by dsimp only [mid]; module⟩
      · exact .inr ⟨2 * u, v - u, w, by linarith, by linarith, hw, by linarith, by dsimp only [mid]; module⟩
    · rintro (⟨u, v, w, hu, hv, hw, hs, rfl⟩ | ⟨u, v, w, hu, hv, hw, hs, rfl⟩)
      · exact ⟨u + v / 2, v / 2, w, by linarith, by linarith, hw, by linarith, by dsimp only [mid]; module⟩
      · exact ⟨u / 2, v + u / 2, w, by linarith, by linarith, hw, by linarith, by dsimp only [mid]; module⟩
  | bc h1 h2 =>
    constructor
    · rintro ⟨u, v, w, hu, hv, hw, hs, rfl⟩
      rcases le_total w v with g | g
      · exact .inl ⟨u, v - w, 2 * w, hu, by linarith, by linarith, by linarith, by dsimp only [mid]; module⟩
      · exact .inr ⟨u, 2 * v, w - v, hu, by linarith, by linarith, by linarith, by dsimp only [mid]; module⟩
    · rintro (⟨u, v, w, hu, hv, hw, hs, rfl⟩ | ⟨u, v, w, hu, hv, hw, hs, rfl⟩)
      · exact ⟨u, v + w / 2, w / 2, hu, by linarith, by linarith, by linarith, by dsimp only [mid]; module⟩
      · exact ⟨u, v / 2, w + v / 2, hu, by linarith, by linarith, by linarith, by dsimp only [mid]; module⟩
  | ca h1 h2 =>
    constructor
    · rintro ⟨u, v, w, hu, hv, hw, hs, rfl⟩
      rcases le_total u w with g | g
      · exact .inl ⟨2 * u, v, w - u, by linarith, hv, by linarith, by linarith, by dsimp only [mid]; module⟩
      · exact .inr ⟨u - w, v, 2 * w, by linarith, hv, by linarith, by linarith, by dsimp only [mid]; module⟩
    · rintro (⟨u, v, w, hu, hv, hw, hs, rfl⟩ | ⟨u, v, w, hu, hv, hw, hs, rfl⟩)
      · exact ⟨u / 2, v, w + u / 2, by linarith, hv, by linarith, by linarith, by dsimp only [mid]; module⟩
      · exact ⟨u + w / 2, v, w / 2, by linarith, hv, by linarith, by linarith, by dsimp only [mid]; module⟩

theorem halves_area {t x y : Tri} (h : Halves t x y) :
    x.area = (1 / 2 : ℝ) • t.area ∧ y.area = (1 / 2 : ℝ) • t.area := by
  cases h <;> constructor <;> ext i <;> fin_cases i <;>
    simp [Tri.area, mid, cross_apply] <;> ring

theorem halves_normal {t x y : Tri} (h : Halves t x y) : x.normal = t.normal ∧ y.normal = t.normal := by
  cases h <;> exact ⟨rfl, rfl⟩

theorem not_long {d : ℝ} {t : Tri} (h : ¬ Long d t) : ∀ e ∈ t.edges, dist3 e.1 e.2 ≤ d := by
  unfold Long at h
  push Not at h
  obtain ⟨h1, h2, h3⟩ := h
  intro e he
  simp only [Tri.edges, List.mem_cons, List.not_mem_nil, or_false] at he
  rcases he with rfl | rfl | rfl
  · exact h1
  · exact h2
  · show dist3 t.c t.a ≤ d
    rw [dist3_symm]; exact h3

theorem cut_partition {d : ℝ} {t : Tri} {l : List Tri} (h : Cut d t l) : Partition d t l := by
  induction h with
  | leaf t h =>
    refine ⟨?_, ?_, by simp, ?_, ?_⟩
    · intro x hx
      rw [List.mem_singleton.mp hx]
      exact not_long h
    · intro p; simp
    · intro x hx
      rw [List.mem_singleton.mp hx]
      exact ⟨0, by simp⟩
    · intro x hx
      rw [List.mem_singleton.mp hx]
  | node t x y l k r hl hh hx hy hr ihx ihy =>
    have hm : ∀ z, z ∈ r ↔ z ∈ l ∨ z ∈ k := fun z => by rw [hr.mem_iff, List.mem_append]
    obtain ⟨a1, a2⟩ := halves_area hh
    obtain ⟨n1, n2⟩ := halves_normal hh
    refine ⟨?_, ?_, ?_, ?_, ?_⟩
    · intro z hz
      rcases (hm z).mp hz with g | g
      · exact ihx.short z g
      · exact ihy.short z g
    · intro p
      rw [halves_points hh, ihx.cover, ihy.cover]
      constructor
      · rintro (⟨z, hz, hp⟩ | ⟨z, hz, hp⟩)
        · exact ⟨z, (hm z).mpr (.inl hz), hp⟩
        · exact ⟨z, (hm z).mpr (.inr hz), hp⟩
      · rintro ⟨z, hz, hp⟩
        rcases (hm z).mp hz with g | g
        · exact .inl ⟨z, g, hp⟩
        · exact .inr ⟨z, g, hp⟩
    · rw [(hr.map Tri.area).sum_eq, List.map_append, List.sum_append, ihx.area, ihy.area, a1, a2]
      module
    · intro z hz
      rcases (hm z).mp hz with g | g
      · obtain ⟨j, hj⟩ := ihx.same z g
        exact ⟨j + 1, by rw [hj, a1, smul_smul, pow_succ]⟩
      · obtain ⟨j, hj⟩ := ihy.same z g
        exact ⟨j + 1, by rw [hj, a2, smul_smul, pow_succ]⟩
    · intro z hz
      rcases (hm z).mp hz with g | g
      · rw [ihx.normal z g, n1]
      · rw [ihy.normal z g, n2]

/-! ## Closed surfaces -/

theorem dist3_mid_left (x y : V3) : dist3 x (mid x y) = dist3 x y / 2 := by
  have h := sq3_mid_left x y
  rw [← dist3_sq, ← dist3_sq] at h
  have h1 := dist3_nonneg x (mid x y)
  have h2 := dist3_nonneg x y
  have : (dist3 x (mid x y)) ^ 2 = (dist3 x y / 2) ^ 2 := by rw [h]; ring
  exact (pow_left_inj₀ h1 (by linarith) two_ne_zero).mp this

theorem dist3_mid_right (x y : V3) : dist3 (mid x y) y = dist3 x y / 2 := by
  rw [mid_comm, dist3_symm, dist3_mid_left, dist3_symm]

theorem ceil_half {x : ℝ} (h : 1 < x) : ⌈x / 2⌉₊ < ⌈x⌉₊ := by
  have h1 : 1 < ⌈x⌉₊ := Nat.lt_ceil.mpr (by exact_mod_cast h)
  have h2 : ⌈x / 2⌉₊ ≤ ⌈x⌉₊ - 1 := by
    rw [Nat.ceil_le, Nat.cast_sub (by omega), Nat.cast_one]
    have h3 := Nat.le_ceil x
    have h4 : (2 : ℝ) ≤ ⌈x⌉₊ := by exact_mod_cast h1
    linarith
  omega

/-- A function of edges, summed over the parts of an edge that is halved until the parts are short. -/
noncomputable def parts (d : ℝ) (w : V3 → V3 → ℝ) (x y : V3) : ℝ :=
  if _h : 0 < d ∧ d < dist3 x y then parts d w x (mid x y) + parts d w (mid x y) y else w x y
termination_by ⌈dist3 x y / d⌉₊
decreasing_by
  · rw [dist3_mid_left, div_right_comm]
    exact ceil_half ((one_lt_div _h.1).mpr _h.2)
  · rw [dist3_mid_right, div_right_comm]
    exact ceil_half ((one_lt_div _h.1).mpr _h.2)

theorem parts_long {d : ℝ} (hd : 0 < d) (w : V3 → V3 → ℝ) {x y : V3} (h : d < dist3 x y) :
    parts d w x y = parts d w x (mid x y) + parts d w (mid x y) y := by
  rw [parts, dif_pos ⟨hd, h⟩]

theorem parts_short {d : ℝ} (w : V3 → V3 → ℝ) {x y : V3} (h : dist3 x y ≤ d) : parts d w x y = w x y := by
  rw [parts, dif_neg fun g => not_lt.mpr h g.2]

theorem parts_anti {d : ℝ} (hd : 0 < d) {w : V3 → V3 → ℝ} (hw : ∀ x y, w y x = - w x y) : ∀ (n : Nat) (x y : V3),
    ⌈dist3 x y / d⌉₊ ≤ n → parts d w y x = - parts d w x y := by
  intro n
  induction n with
  | zero =>
    intro x y h
    have : dist3 x y / d ≤ 0 := by
      have := Nat.le_ceil (dist3 x y / d)
      have h0 : ⌈dist3 x y / d⌉₊ = 0 := by omega
      rw [h0] at this
      simpa using this
    have hle : dist3 x y ≤ d := by
      rw [div_le_iff₀ hd] at this
      linarith
    rw [parts_short w hle, parts_short w (by rw [dist3_symm]; exact hle)]
    exact hw x y
  | succ n ih =>
    intro x y h
    by_cases g : d < dist3 x y
    · have hc := ceil_half ((one_lt_div hd).mpr g)
      have e1 : ⌈dist3 x (mid x y) / d⌉₊ ≤ n := by
        rw [dist3_mid_left, div_right_comm]; omega
      have e2 : ⌈dist3 (mid x y) y / d⌉₊ ≤ n := by
        rw [dist3_mid_right, div_right_comm]; omega
      rw [parts_long hd w g, parts_long hd w (by rw [dist3_symm]; exact g), mid_comm y x, ih _ _ e1, ih _ _ e2]
      ring
    · have hle := not_lt.mp g
      rw [parts_short w hle, parts_short w (by rw [dist3_symm]; exact hle)]
      exact hw x y

/-- The sum of a function over the edges of triangles. -/
def edgeSum (w : V3 → V3 → ℝ) (l : List Tri) : ℝ := ((l.flatMap Tri.edges).map fun e => w e.1 e.2).sum

theorem edgeSum_append (w : V3 → V3 → ℝ) (l k : List Tri) : edgeSum w (l ++ k) = edgeSum w l + edgeSum w k := by
  unfold edgeSum
  rw [List.flatMap_append, List.map_append, List.sum_append]

theorem edgeSum_perm (w : V3 → V3 → ℝ) {l k : List Tri} (h : l.Perm k) : edgeSum w l = edgeSum w k :=
  ((h.flatMap_right Tri.edges).map _).sum_eq

theorem edgeSum_one (w : V3 → V3 → ℝ) (t : Tri) : edgeSum w [t] = w t.a t.b + w t.b t.c + w t.c t.a := by
  simp [edgeSum, Tri.edges, add_assoc]

theorem long_edge {d : ℝ} (hd : 0 ≤ d) {t : Tri} (hl : Long d t) {x y : V3}
    (h1 : sq3 t.a t.b ≤ sq3 x y) (h2 : sq3 t.b t.c ≤ sq3 x y) (h3 : sq3 t.a t.c ≤ sq3 x y) : d < dist3 x y := by
  unfold Long at hl
  rw [gt_iff_lt, gt_iff_lt, gt_iff_lt, lt_dist3 hd, lt_dist3 hd, lt_dist3 hd] at hl
  rw [lt_dist3 hd]
  rcases hl with g | g | g <;> linarith

theorem cut_edges {d : ℝ} (hd : 0 < d) {w : V3 → V3 → ℝ} (hw : ∀ x y, w y x = - w x y) {t : Tri} {l : List Tri}
    (h : Cut d t l) : edgeSum w l = edgeSum (parts d w) [t] := by
  have ha : ∀ x y, parts d w y x = - parts d w x y := fun x y => parts_anti hd hw _ x y (le_refl _)
  induction h with
  | leaf t h =>
    have hs := not_long h
    rw [edgeSum_one, edgeSum_one, parts_short w (hs (t.a, t.b) (by simp [Tri.edges])),
      parts_short w (hs (t.b, t.c) (by simp [Tri.edges])), parts_short w (hs (t.c, t.a) (by simp [Tri.edges]))]
  | node t x y l k r hl hh hx hy hr ihx ihy =>
    rw [edgeSum_perm w hr, edgeSum_append, ihx, ihy, edgeSum_one, edgeSum_one, edgeSum_one]
    cases hh with
    | ab h1 h2 =>
      dsimp only
      rw [parts_long hd w (long_edge hd.le hl (le_refl _) h1 h2), ha (mid t.a t.b) t.c]
      ring
    | bc h1 h2 =>
      dsimp only
      rw [parts_long hd w (long_edge hd.le hl h1 (le_refl _) h2), ha (mid t.b t.c) t.a]
      ring
    | ca h1 h2 =>
      dsimp only
      have g := long_edge hd.le hl h1 h2 (le_refl _)
      rw [dist3_symm] at g
      rw [parts_long hd w g, ha (mid t.c t.a) t.b]
      ring

theorem closed_iff (l : List Tri) :
    Closed l ↔ ∀ w : V3 → V3 → ℝ, (∀ x y, w y x = - w x y) → edgeSum w l = 0 := by
  constructor
  · intro h w hw
    have h1 := (h.map fun e => w e.1 e.2).sum_eq
    rw [List.map_map] at h1
    have h2 : ((fun e : V3 × V3 => w e.1 e.2) ∘ Prod.swap) = fun e => - w e.1 e.2 := by
      funext e; exact hw e.1 e.2
    rw [h2] at h1
    have h3 : ∀ L : List (V3 × V3), (L.map fun e => - w e.1 e.2).sum = - (L.map fun e => w e.1 e.2).sum := by
      intro L
      induction L with
      | nil => simp
      | cons e L ih => rw [List.map_cons, List.sum_cons, ih, List.map_cons, List.sum_cons]; ring
    rw [h3] at h1
    unfold edgeSum
    linarith
  · intro h
    unfold Closed
    rw [List.perm_iff_count]
    rintro ⟨x, y⟩
    have hc : ∀ (L : List (V3 × V3)), (L.map Prod.swap).count (x, y) = L.count (y, x) := by
      intro L
      rw [show ((x, y) : V3 × V3) = Prod.swap (y, x) from rfl]
      exact List.count_map_of_injective L Prod.swap Prod.swap_injective (y, x)
    rw [hc]
    have hs : ∀ (L : List (V3 × V3)), (L.map fun e => (if (e.1, e.2) = (x, y) then (1 : ℝ) else 0) -
        if (e.1, e.2) = (y, x) then 1 else 0).sum = (L.count (x, y) : ℝ) - L.count (y, x) := by
      intro L
      induction L with
      | nil => simp
      | cons e L ih =>
        rw [List.map_cons, List.sum_cons, ih, List.count_cons, List.count_cons]
        simp only [beq_iff_eq, Prod.mk.eta]
        split_ifs <;> push_cast <;> ring
    have := h (fun u v => (if (u, v) = (x, y) then (1 : ℝ) else 0) - if (u, v) = (y, x) then 1 else 0) (by
      intro u v
      have e1 : ((v, u) = (x, y)) ↔ ((u, v) = (y, x)) := by
        simp only [Prod.mk.injEq]; exact And.comm
      have e2 : ((v, u) = (y, x)) ↔ ((u, v) = (x, y)) := by
        simp only [Prod.mk.injEq]; exact And.comm
      simp only [e1, e2]
      ring)
    unfold edgeSum at this
    rw [hs] at this
    have : ((l.flatMap Tri.edges).count (x, y) : ℝ) = (l.flatMap Tri.edges).count (y, x) := by linarith
    exact_mod_cast this

end Simox.Rfn
