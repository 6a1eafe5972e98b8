import Verif.Wsr.Lemmas

/-!
# Property C60: voxel addresses

All statements are about representations produced by `initialize'` (any bounds and step sizes); `x` are
the local coordinates of a pose, three of position and three of orientation.
-/

namespace Simox.Wsr

open Workspace Spec

/-- **C60**, the grid: `initialize` throws exactly for non-positive steps, empty bounds or bad nodes;
otherwise the voxels of every dimension tile the extent, their edges are smaller than the requested step,
and no smaller number of voxels would achieve that for steps larger than the edge of `num - 1` voxels. -/
theorem C60_grid (b : Bool) (stepT stepR : ℝ) (lo hi : Fin 6 → ℝ) (adj : Bool) :
    (initialize' b stepT stepR lo hi adj = none ↔
      stepT ≤ 0 ∨ stepR ≤ 0 ∨ (∃ i, hi i ≤ lo i) ∨ b = false) ∧
    ∀ r, initialize' b stepT stepR lo hi adj = some r → r.lo = lo ∧ r.hi = hi ∧
      ∀ i, 0 < r.num i ∧ r.num i * edge r i = hi i - lo i ∧ edge r i < stepOf stepT stepR i ∧
        (r.num i - 1) * stepOf stepT stepR i ≤ hi i - lo i ∧ getVoxelSize r i = edge r i := by
  have hcount : ∀ i, 0 < stepT → 0 < stepR → lo i < hi i → 0 < voxelCount stepT stepR lo hi i := by
    intro i h1 h2 h3
    have hs : 0 < stepOf stepT stepR i := by unfold stepOf; split <;> assumption
    have := toInt_nonneg (div_nonneg (sub_nonneg.2 h3.le) hs.le)
    unfold voxelCount; omega
  constructor
  · unfold initialize'
    constructor
    · intro h
      split at h; · rename_i h1; tauto
      rename_i h1
      split at h; · rename_i h2; tauto
      rename_i h2
      split at h; · rename_i h3; tauto
      split at h
      · rename_i h4
        push Not at h1 h2
        obtain ⟨i, hi'⟩ := h4
        exact absurd (hcount i h1.1 h1.2 (h2 i)) (not_lt.2 hi')
      · exact absurd h (by simp)
    · rintro (h | h | h | h)
      · rw [if_pos (Or.inl h)]
      · rw [if_pos (Or.inr h)]
      · split
        · rfl
        · first | rfl | rw [if_pos h]
      · split
        · rfl
        · split
          · rfl
          · first | rfl | rw [if_pos h]
  · intro r h
    obtain ⟨s1, s2, ok, e1, e2, -, -, en, -⟩ := initialize_eq h
    refine ⟨e1, e2, fun i => ⟨ok.num i, ?_, ?_, ?_, voxelSize_eq ok i⟩⟩
    · rw [mul_comm, edge_mul ok, e1, e2]
    all_goals
      have hs : 0 < stepOf stepT stepR i := by unfold stepOf; split <;> assumption
      have hb : lo i < hi i := by have := ok.bounds i; rwa [e1, e2] at this
      have hq : 0 ≤ (hi i - lo i) / stepOf stepT stepR i := div_nonneg (sub_nonneg.2 hb.le) hs.le
      have hn : r.num i = ⌊(hi i - lo i) / stepOf stepT stepR i⌋ + 1 := by
        rw [en]; unfold voxelCount toInt; rw [if_pos hq]
      have hnR : (r.num i : ℝ) = ⌊(hi i - lo i) / stepOf stepT stepR i⌋ + 1 := by
        rw [hn]; push_cast; ring
      have f1 := Int.floor_le ((hi i - lo i) / stepOf stepT stepR i)
      have f2 := Int.lt_floor_add_one ((hi i - lo i) / stepOf stepT stepR i)
    · have hp : (0 : ℝ) < r.num i := by exact_mod_cast ok.num i
      unfold edge
      rw [div_lt_iff₀ hp, e1, e2, hnR]
      rw [div_lt_iff₀ hs] at f2
      linarith
    · rw [le_div_iff₀ hs] at f1
      rw [hnR]; linarith

/-- **C60**, inside: a pose within the bounds is always assigned a voxel, and it is the one voxel of the
grid that contains it. -/
theorem C60_inside {b : Bool} {stepT stepR : ℝ} {lo hi : Fin 6 → ℝ} {adj : Bool} {r : Rep}
    (h : initialize' b stepT stepR lo hi adj = some r) (x : Fin 6 → ℝ) (hx : Inside r x) :
    (∃ v, getVoxelFromPose r x = some v) ∧
    ∀ v, getVoxelFromPose r x = some v ↔ IsIndex r v ∧ InVoxel r v x := by
  have ok := (initialize_eq h).2.2.1
  refine ⟨⟨_, accepted_some ok (inside_accepted ok hx)⟩, fun v => ?_⟩
  rw [getVoxel_eq ok]
  constructor
  · rintro ⟨-, he⟩
    refine ⟨fun i => by rw [he i]; exact address_lt ok x i, fun i => ?_⟩
    rw [he i]
    rcases (hx i).2.lt_or_eq with hlt | heq
    · have := address_mem ok (hx i).1 hlt
      exact ⟨this.1, Or.inl this.2⟩
    · have ht := address_of_top ok heq.ge
      refine ⟨?_, Or.inr ⟨ht, heq⟩⟩
      have hR : (address r x i : ℝ) + 1 = r.num i := by exact_mod_cast ht
      have hm := edge_mul ok i
      have hp := edge_pos ok i
      rw [heq]; nlinarith
  · rintro ⟨hi', hv⟩
    refine ⟨inside_accepted ok hx, fun i => ?_⟩
    obtain ⟨h1, h2 | ⟨h2, h3⟩⟩ := hv i
    · exact (address_of_mem ok (hi' i) h1 h2).symm
    · have := address_of_top ok h3.ge
      omega

/-- **C60**, acceptance: exactly the poses less than one and a half voxels below the lower bounds and less
than half a voxel above the upper bounds are accepted; outside the bounds they get the nearest index of
the dimension. An index is always one of the grid. -/
theorem C60_accepted {b : Bool} {stepT stepR : ℝ} {lo hi : Fin 6 → ℝ} {adj : Bool} {r : Rep}
    (h : initialize' b stepT stepR lo hi adj = some r) (x : Fin 6 → ℝ) :
    ((getVoxelFromPose r x).isSome ↔ Accepted r x) ∧
    ∀ v, getVoxelFromPose r x = some v → IsIndex r v ∧ ∀ i,
      (x i < r.lo i → at6 v i = 0) ∧ (r.hi i ≤ x i → (at6 v i : ℤ) + 1 = r.num i) := by
  have ok := (initialize_eq h).2.2.1
  constructor
  · constructor
    · intro hs
      obtain ⟨v, hv⟩ := Option.isSome_iff_exists.1 hs
      exact ((getVoxel_eq ok x v).1 hv).1
    · intro ha; rw [accepted_some ok ha]; rfl
  · intro v hv
    obtain ⟨-, he⟩ := (getVoxel_eq ok x v).1 hv
    refine ⟨fun i => by rw [he i]; exact address_lt ok x i, fun i => ⟨fun hl => ?_, fun hl => ?_⟩⟩
    · rw [he i]; exact address_of_low ok hl
    · rw [he i]; exact address_of_top ok hl

/-- The comment "if pose is outside of voxel space, ignore it" does not hold: in every representation, a
pose more than a whole voxel outside the space is entered, in the voxel at the border. -/
theorem C60_outside_not_ignored {b : Bool} {stepT stepR : ℝ} {lo hi : Fin 6 → ℝ} {adj : Bool} {r : Rep}
    (h : initialize' b stepT stepR lo hi adj = some r) :
    ∃ x v, x 0 < r.lo 0 - edge r 0 ∧ (∀ i, i ≠ 0 → r.lo i ≤ x i ∧ x i ≤ r.hi i) ∧
      getVoxelFromPose r x = some v ∧ at6 v 0 = 0 := by
  have ok := (initialize_eq h).2.2.1
  have hp := edge_pos ok
  refine ⟨fun i => if i = 0 then r.lo 0 - 5 / 4 * edge r 0 else r.lo i, _, ?_, ?_, accepted_some ok ?_, ?_⟩
  · have := hp 0; simp only [if_true]; linarith
  · intro i hi'; simp only [if_neg hi']; exact ⟨le_refl _, (ok.bounds i).le⟩
  · intro i
    have := hp i
    have hb := ok.bounds i
    by_cases hi' : i = 0
    · subst hi'; simp only [if_true]; constructor <;> linarith
    · simp only [if_neg hi']; constructor <;> linarith
  · rw [at6_mkVox]
    have := hp 0
    apply address_of_low ok; simp only [if_true]; linarith

theorem axisPosition_iff {r : Rep} (ok : Ok r) (i : Fin 6) (x : ℝ) (k : Nat) :
    axisPosition r i x = some k ↔
      (r.lo i - edge r i < x ∧ x < r.hi i) ∧ axisVoxel r i x = some k := by
  have hn := ok.num i
  have hnR : (1 : ℝ) ≤ (r.num i : ℝ) := by exact_mod_cast hn
  have hs := edge_pos ok i
  have hm := edge_mul ok i
  have hacc : (r.lo i - edge r i < x ∧ x < r.hi i) ↔
      (-1 < (x - r.lo i) / edge r i ∧ (x - r.lo i) / edge r i < r.num i) := by
    rw [lt_div_iff₀ hs, div_lt_iff₀ hs]
    constructor <;> rintro ⟨a, c⟩ <;> constructor <;> nlinarith
  rw [hacc, axis_eq ok]
  unfold axisPosition
  simp only [pos_eq ok]
  generalize (x - r.lo i) / edge r i = p
  generalize r.num i = n at hn hnR
  unfold toInt
  by_cases hp : 0 ≤ p
  · have f1 := Int.floor_le p
    have f2 := Int.lt_floor_add_one p
    have h0 : 0 ≤ ⌊p⌋ := Int.floor_nonneg.2 hp
    rw [if_pos hp, if_neg (not_lt.2 h0)]
    by_cases hc : ⌊p⌋ ≥ n
    · have : (n : ℝ) ≤ p := Int.le_floor.1 hc
      rw [if_pos hc]
      constructor
      · intro hh; exact absurd hh (by simp)
      · rintro ⟨⟨-, hh⟩, -⟩; linarith
    · have hlt : ⌊p⌋ < n := not_le.1 hc
      have : p < n := Int.floor_lt.1 hlt
      rw [if_neg hc, if_pos ⟨by linarith, by linarith⟩, min_eq_left (by omega)]
      exact ⟨fun hh => ⟨⟨by linarith, this⟩, hh⟩, fun hh => hh.2⟩
  · have hp' := not_le.1 hp
    have hf : ⌊p⌋ < 0 := Int.floor_lt.2 (by exact_mod_cast hp')
    have hmin : (min ⌊p⌋ (n - 1)).toNat = 0 := by omega
    have h1 := Int.le_ceil p
    have h2 := Int.ceil_lt_add_one p
    have hc0 : ⌈p⌉ ≤ 0 := Int.ceil_le.2 (by simpa using hp'.le)
    rw [if_neg hp, hmin]
    by_cases hc : ⌈p⌉ < 0
    · have : ⌈p⌉ ≤ -1 := by omega
      have : (⌈p⌉ : ℝ) ≤ -1 := by exact_mod_cast this
      rw [if_pos hc]
      constructor
      · intro hh; exact absurd hh (by simp)
      · rintro ⟨⟨hh, -⟩, -⟩; linarith
    · have e : ⌈p⌉ = 0 := by omega
      have e' : (⌈p⌉ : ℝ) = 0 := by exact_mod_cast e
      rw [if_neg hc, if_neg (by omega), e, if_pos ⟨by linarith, by linarith⟩]
      exact ⟨fun hh => ⟨⟨by linarith, by linarith⟩, hh⟩, fun hh => hh.2⟩

/-- **C60**, positions: `getVoxelFromPosition` accepts exactly the positions less than one voxel below the
lower bounds and strictly below the upper bounds, and then agrees with the address of every pose at that
position. -/
theorem C60_position {b : Bool} {stepT stepR : ℝ} {lo hi : Fin 6 → ℝ} {adj : Bool} {r : Rep}
    (h : initialize' b stepT stepR lo hi adj = some r) (x : Fin 6 → ℝ) :
    ((getVoxelFromPosition r (x 0) (x 1) (x 2)).isSome ↔
      ∀ i : Fin 6, i.1 < 3 → r.lo i - edge r i < x i ∧ x i < r.hi i) ∧
    ∀ p v, getVoxelFromPosition r (x 0) (x 1) (x 2) = some p → getVoxelFromPose r x = some v →
      p = (v.a, v.b, v.c) := by
  have ok := (initialize_eq h).2.2.1
  have hs : ∀ i, (r.lo i - edge r i < x i ∧ x i < r.hi i) → ∃ k, axisPosition r i (x i) = some k := by
    intro i hi'
    refine ⟨address r x i, (axisPosition_iff ok i (x i) _).2 ⟨hi', ?_⟩⟩
    have := edge_pos ok i
    rw [axis_eq ok, if_pos ((axis_accept ok i (x i)).2 ⟨by linarith, by linarith⟩)]; rfl
  have hiff : ∀ p, getVoxelFromPosition r (x 0) (x 1) (x 2) = some p ↔
      axisPosition r 0 (x 0) = some p.1 ∧ axisPosition r 1 (x 1) = some p.2.1 ∧
        axisPosition r 2 (x 2) = some p.2.2 := by
    intro p
    unfold getVoxelFromPosition
    simp only [Option.bind_eq_bind, Option.bind_eq_some_iff, Option.pure_def, Option.some.injEq]
    constructor
    · rintro ⟨a, ha, c, hc, d, hd, rfl⟩; exact ⟨ha, hc, hd⟩
    · rintro ⟨ha, hc, hd⟩; exact ⟨_, ha, _, hc, _, hd, rfl⟩
  constructor
  · rw [Option.isSome_iff_exists]
    constructor
    · rintro ⟨p, hp⟩ i hi'
      obtain ⟨h0, h1, h2⟩ := (hiff p).1 hp
      match i, hi' with
      | 0, _ => exact ((axisPosition_iff ok _ _ _).1 h0).1
      | 1, _ => exact ((axisPosition_iff ok _ _ _).1 h1).1
      | 2, _ => exact ((axisPosition_iff ok _ _ _).1 h2).1
    · intro ha
      obtain ⟨a, h0⟩ := hs 0 (ha 0 (by decide))
      obtain ⟨c, h1⟩ := hs 1 (ha 1 (by decide))
      obtain ⟨d, h2⟩ := hs 2 (ha 2 (by decide))
      exact ⟨(a, c, d), (hiff _).2 ⟨h0, h1, h2⟩⟩
  · intro p v hp hv
    obtain ⟨h0, h1, h2⟩ := (hiff p).1 hp
    rw [getVoxel_iff] at hv
    have e0 := ((axisPosition_iff ok _ _ _).1 h0).2
    have e1 := ((axisPosition_iff ok _ _ _).1 h1).2
    have e2 := ((axisPosition_iff ok _ _ _).1 h2).2
    rw [hv 0] at e0; rw [hv 1] at e1; rw [hv 2] at e2
    have e0 := Option.some.inj e0
    have e1 := Option.some.inj e1
    have e2 := Option.some.inj e2
    simp only [at6] at e0 e1 e2
    rw [e0, e1, e2]

/-- The two address functions disagree at the upper bounds: a pose exactly on the upper bound of the
positions has a voxel, its position has none. -/
theorem C60_position_disagrees {b : Bool} {stepT stepR : ℝ} {lo hi : Fin 6 → ℝ} {adj : Bool} {r : Rep}
    (h : initialize' b stepT stepR lo hi adj = some r) :
    (getVoxelFromPose r r.hi).isSome ∧ getVoxelFromPosition r (r.hi 0) (r.hi 1) (r.hi 2) = none := by
  have ok := (initialize_eq h).2.2.1
  refine ⟨(C60_accepted h r.hi).1.2 (inside_accepted ok fun i => ⟨(ok.bounds i).le, le_refl _⟩), ?_⟩
  rw [← Option.not_isSome_iff_eq_none, (C60_position h r.hi).1]
  intro hh
  exact lt_irrefl _ (hh 0 (by decide)).2

/-- **C60**, centres: the coordinates `getPoseFromVoxel(v)` and `sampleCoveredPose` compute for a voxel are
the centre of that voxel and lead back to it. -/
theorem C60_centre {b : Bool} {stepT stepR : ℝ} {lo hi : Fin 6 → ℝ} {adj : Bool} {r : Rep}
    (h : initialize' b stepT stepR lo hi adj = some r) (v : Vox) (hv : IsIndex r v) :
    getVoxelFromPose r (centre r v) = some v ∧
    ∀ i, centre r v i = r.lo i + (at6 v i + 1 / 2) * edge r i := by
  have ok := (initialize_eq h).2.2.1
  have hc : ∀ i, centre r v i = r.lo i + (at6 v i + 1 / 2) * edge r i := by
    intro i; unfold centre coordsOf; rw [voxelSize_eq ok]
  have hp := edge_pos ok
  refine ⟨(getVoxel_eq ok _ _).2 ⟨inside_accepted ok fun i => ?_, fun i => ?_⟩, hc⟩
  · have hk : (at6 v i : ℝ) + 1 ≤ r.num i := by exact_mod_cast hv i
    have hm := edge_mul ok i
    have := hp i
    have h0 : (0 : ℝ) ≤ at6 v i := Nat.cast_nonneg _
    rw [hc i]
    constructor <;> nlinarith
  · have := hp i
    refine (address_of_mem ok (hv i) ?_ ?_).symm <;> rw [hc i] <;> nlinarith

/-- **C60**, the other overload: `getPoseFromVoxel(unsigned[6], float[6])` accepts exactly the indices of
the grid, and if every extent is larger than the step of its dimension the coordinates lead back to the
voxel (although they are not its centre but lie beyond it). -/
theorem C60_pose_from_voxel {b : Bool} {stepT stepR : ℝ} {lo hi : Fin 6 → ℝ} {adj : Bool} {r : Rep}
    (h : initialize' b stepT stepR lo hi adj = some r) (v : Vox) :
    ((getPoseFromVoxel r v).isSome ↔ IsIndex r v) ∧
    ∀ x, getPoseFromVoxel r v = some x →
      (∀ i, x i - (r.lo i + (at6 v i + 1 / 2) * edge r i) = (stepOf stepT stepR i - edge r i) / 2 ∧
        r.lo i + (at6 v i + 1 / 2) * edge r i < x i) ∧
      ((∀ i, stepOf stepT stepR i < hi i - lo i) → getVoxelFromPose r x = some v) := by
  obtain ⟨s1, s2, ok, e1, e2, e3, e4, en, -⟩ := initialize_eq h
  have hp := edge_pos ok
  unfold getPoseFromVoxel
  constructor
  · unfold IsIndex
    split
    · rename_i hc; obtain ⟨i, hi'⟩ := hc
      simp only [Option.isSome_none, Bool.false_eq_true, false_iff, not_forall]
      exact ⟨i, not_lt.2 hi'⟩
    · rename_i hc; push Not at hc; simpa using hc
  · intro x hx
    split at hx
    · exact absurd hx (by simp)
    rename_i hc; push Not at hc
    have hx' := Option.some.inj hx
    have hxi : ∀ i, x i = r.lo i + at6 v i * edge r i + stepOf stepT stepR i / 2 := by
      intro i
      have he : edge r i = r.space i / r.num i := by unfold edge; rw [ok.space]
      rw [← hx', he]
      simp only [e3, e4]
      ring
    have hgrid := ((C60_grid b stepT stepR lo hi adj).2 r h).2.2
    refine ⟨fun i => ?_, fun hbig => ?_⟩
    · have := (hgrid i).2.2.1
      rw [hxi i]
      constructor
      · ring
      · linarith
    · have hhalf : ∀ i, stepOf stepT stepR i / 2 < edge r i := by
        intro i
        obtain ⟨g1, g2, g3, g4, -⟩ := hgrid i
        have hb := hbig i
        have hs : 0 < stepOf stepT stepR i := by unfold stepOf; split <;> assumption
        -- at least two voxels
        have h2 : 2 ≤ r.num i := by
          by_contra hcon
          have : r.num i = 1 := by omega
          rw [this] at g2
          push_cast at g2
          linarith
        rcases h2.lt_or_eq with h3 | h3
        · have h3R : (3 : ℝ) ≤ r.num i := by exact_mod_cast h3
          -- (n-1) step ≤ extent = n edge
          have : (r.num i : ℝ) * (stepOf stepT stepR i / 2) < r.num i * edge r i := by
            rw [g2]; nlinarith
          exact lt_of_mul_lt_mul_left this (by linarith)
        · rw [← h3] at g2
          push_cast at g2
          linarith
      refine (getVoxel_eq ok _ _).2 ⟨inside_accepted ok fun i => ?_, fun i => ?_⟩
      · have hk : (at6 v i : ℝ) + 1 ≤ r.num i := by exact_mod_cast hc i
        have hm := edge_mul ok i
        have := hp i
        have := hhalf i
        have h0 : (0 : ℝ) ≤ at6 v i := Nat.cast_nonneg _
        have hs : 0 < stepOf stepT stepR i := by unfold stepOf; split <;> assumption
        rw [hxi i]
        constructor <;> nlinarith
      · have := hhalf i
        have hs : 0 < stepOf stepT stepR i := by unfold stepOf; split <;> assumption
        refine (address_of_mem ok (hc i) ?_ ?_).symm <;> rw [hxi i] <;> nlinarith

/-- The condition on the extents is needed: if the extent of a dimension is exactly one step, it is
divided into two voxels, and the coordinates computed for the first one are those of the second. -/
theorem C60_pose_from_voxel_leaves {b : Bool} {stepT stepR : ℝ} {lo hi : Fin 6 → ℝ} {adj : Bool} {r : Rep}
    (h : initialize' b stepT stepR lo hi adj = some r) (i : Fin 6)
    (hone : hi i - lo i = stepOf stepT stepR i) (v : Vox) (hv : at6 v i = 0) (x : Fin 6 → ℝ)
    (hx : getPoseFromVoxel r v = some x) :
    r.num i = 2 ∧ ∀ u, getVoxelFromPose r x = some u → at6 u i = 1 := by
  obtain ⟨s1, s2, ok, e1, e2, e3, e4, en, -⟩ := initialize_eq h
  have hs : 0 < stepOf stepT stepR i := by unfold stepOf; split <;> assumption
  have hn : r.num i = 2 := by
    rw [en]; unfold voxelCount toInt
    rw [hone, div_self hs.ne', if_pos zero_le_one]; simp
  have hedge : edge r i = stepOf stepT stepR i / 2 := by
    unfold edge; rw [hn, e1, e2, hone]; norm_num
  refine ⟨hn, fun u hu => ?_⟩
  obtain ⟨-, he⟩ := (getVoxel_eq ok x u).1 hu
  rw [he i]
  have hxi : x i = r.lo i + edge r i := by
    unfold getPoseFromVoxel at hx
    split at hx
    · exact absurd hx (by simp)
    rw [← Option.some.inj hx]
    simp only [hv, e3, e4, hedge]; push_cast; ring
  apply address_of_mem ok
  · rw [hn]; decide
  · rw [hxi]; push_cast; linarith
  · rw [hxi]; push_cast; nlinarith [edge_pos ok i]

/-! ## Non-vacuity -/

/-- A workspace of 2 m × 2 m × 2 m with steps of 30 mm, and orientations of 0..6.28 with steps of 0.5. -/
noncomputable def exLo : Fin 6 → ℝ := ![-1000, -1000, 0, 0, 0, 0]
/-- Upper bounds. -/
noncomputable def exHi : Fin 6 → ℝ := ![1000, 1000, 2000, 6.28, 6.28, 1.5]

theorem ex_ok : ∃ r, initialize' true 30 0.5 exLo exHi true = some r := by
  have := (C60_grid true 30 0.5 exLo exHi true).1
  cases h : initialize' true 30 0.5 exLo exHi true with
  | some r => exact ⟨r, rfl⟩
  | none =>
    rcases this.1 h with h | h | ⟨i, h⟩ | h
    · norm_num at h
    · norm_num at h
    · fin_cases i <;> norm_num [exLo, exHi] at h
    · exact absurd h (by decide)

/-- It has 67 voxels in the first dimension, and every extent is larger than its step. -/
example : voxelCount 30 0.5 exLo exHi 0 = 67 ∧ ∀ i, stepOf 30 0.5 i < exHi i - exLo i := by
  constructor
  · have : ⌊(2000 / 30 : ℝ)⌋ = 66 := by rw [Int.floor_eq_iff]; norm_num
    have h1 : exHi 0 - exLo 0 = 2000 := by norm_num [exHi, exLo]
    have h2 : stepOf 30 0.5 0 = 30 := by norm_num [stepOf]
    unfold voxelCount toInt
    rw [h1, h2, if_pos (by norm_num), this]; rfl
  · intro i; fin_cases i <;> norm_num [exHi, exLo, stepOf]

/-- The case of `C60_pose_from_voxel_leaves`: an orientation range of exactly one step. -/
example : (![1000, 1000, 2000, 0.5, 6.28, 1.5] : Fin 6 → ℝ) 3 - exLo 3 = stepOf 30 0.5 3 := by
  simp [exLo, stepOf, Matrix.cons_val]

end Simox.Wsr
