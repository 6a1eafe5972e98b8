import Verif.Wsr.QueryLemmas
import Verif.Wsr.RecProps
import Mathlib.Tactic.Positivity

/-!
# Property C62: queries of the recorded workspace

`r` is freshly initialised, `cs` any history of valid calls, and `s` the content it leads to according to
the specification (`C61_contents`); the queries are made in the state after the history.
-/

namespace Simox.Wsr

open Workspace Spec
open Workspace.Spec (InRange Fits InCube)

variable {b : Bool} {stepT stepR : ℝ} {lo hi : Fin 6 → ℝ} {adj : Bool} {r : Rep}

/-- **C62**, sums over orientations: the sum of all entries at a position, zero outside the grid; the
average is this sum divided by the number of orientations, rounded down. -/
theorem C62_sums (h : initialize' b stepT stepR lo hi adj = some r) (hf : FitsGrid r)
    (cs : List Call) (hc : ∀ c ∈ cs, Valid r c) (x y z : Nat) :
    ∃ r', runCalls r cs = some r' ∧
      ((x < (sizesOf r.num).a ∧ y < (sizesOf r.num).b ∧ z < (sizesOf r.num).c) →
        sumAngles r' x y z = some
          (sumAt (sizesOf r.num) (content (getVoxelFromPose r) (sizesOf r.num) adj cs) x y z) ∧
        avgAngles r' x y z = some
          (sumAt (sizesOf r.num) (content (getVoxelFromPose r) (sizesOf r.num) adj cs) x y z /
            (sumAt (sizesOf r.num) (fun _ => 1) x y z))) ∧
      (¬ (x < (sizesOf r.num).a ∧ y < (sizesOf r.num).b ∧ z < (sizesOf r.num).c) →
        sumAngles r' x y z = some 0 ∧ avgAngles r' x y z = some 0) := by
  obtain ⟨r', e, g, G, -⟩ := reach h hf cs hc
  have hs := sumAngles_eq G x y z
  rw [g.num] at hs
  refine ⟨r', e, fun hin => ?_, fun hout => ?_⟩
  · rw [if_pos hin] at hs
    refine ⟨hs, ?_⟩
    unfold avgAngles
    rw [hs, g.num]
    have : sumAt (sizesOf r.num) (fun _ => 1) x y z =
        (sizesOf r.num).d * (sizesOf r.num).e * (sizesOf r.num).f := by
      unfold sumAt; simp [Nat.mul_assoc]
    rw [this]; rfl
  · rw [if_neg hout] at hs
    refine ⟨hs, ?_⟩
    unfold avgAngles
    rw [hs]; simp

/-- **C62**, maxima: `getMaxEntry` of a position is the largest entry over all orientations, of a position
without a voxel zero; `getMaxSummedAngleReachablity` is the largest sum over all positions. -/
theorem C62_maxima (h : initialize' b stepT stepR lo hi adj = some r) (hf : FitsGrid r)
    (cs : List Call) (hc : ∀ c ∈ cs, Valid r c) :
    ∃ r', runCalls r cs = some r' ∧
      (∀ p : Fin 6 → ℝ, getVoxelFromPosition r (p 0) (p 1) (p 2) = none →
        getMaxEntryPos r' (p 0) (p 1) (p 2) = some 0) ∧
      (∀ (p : Fin 6 → ℝ) x y z, getVoxelFromPosition r (p 0) (p 1) (p 2) = some (x, y, z) →
        ∃ k, getMaxEntryPos r' (p 0) (p 1) (p 2) = some k ∧
          (∀ d e f, d < (sizesOf r.num).d → e < (sizesOf r.num).e → f < (sizesOf r.num).f →
            content (getVoxelFromPose r) (sizesOf r.num) adj cs ⟨x, y, z, d, e, f⟩ ≤ k) ∧
          (k = 0 ∨ ∃ d e f, d < (sizesOf r.num).d ∧ e < (sizesOf r.num).e ∧ f < (sizesOf r.num).f ∧
            content (getVoxelFromPose r) (sizesOf r.num) adj cs ⟨x, y, z, d, e, f⟩ = k)) ∧
      ∃ k, getMaxSummed r' = some k ∧
        (∀ x y z, x < (sizesOf r.num).a → y < (sizesOf r.num).b → z < (sizesOf r.num).c →
          sumAt (sizesOf r.num) (content (getVoxelFromPose r) (sizesOf r.num) adj cs) x y z ≤ k) ∧
        (k = 0 ∨ ∃ x y z, x < (sizesOf r.num).a ∧ y < (sizesOf r.num).b ∧ z < (sizesOf r.num).c ∧
          sumAt (sizesOf r.num) (content (getVoxelFromPose r) (sizesOf r.num) adj cs) x y z = k) := by
  obtain ⟨r', e, g, G, -⟩ := reach h hf cs hc
  have hpos : ∀ p : Fin 6 → ℝ, getVoxelFromPosition r' (p 0) (p 1) (p 2) =
      getVoxelFromPosition r (p 0) (p 1) (p 2) := by
    intro p; unfold getVoxelFromPosition axisPosition; rw [g.lo, g.space, g.num]
  have hsum := getMaxSummed_spec G
  rw [g.num] at hsum
  refine ⟨r', e, fun p hp => ?_, fun p x y z hp => ?_, hsum⟩
  · unfold getMaxEntryPos; rw [hpos p, hp]
  · have hlt : ∀ i k, axisPosition r i (p i) = some k → k < (r.num i).toNat := by
      intro i k hk
      unfold axisPosition at hk
      simp only at hk
      split at hk
      · exact absurd hk (by simp)
      · split at hk
        · exact absurd hk (by simp)
        · have := Option.some.inj hk; omega
    have hp' := hp
    unfold getVoxelFromPosition at hp'
    simp only [Option.bind_eq_bind, Option.bind_eq_some_iff, Option.pure_def, Option.some.injEq,
      Prod.mk.injEq] at hp'
    obtain ⟨a, ha, c, hc', d, hd, rfl, rfl, rfl⟩ := hp'
    obtain ⟨k, e1, k1, k2⟩ := getMaxEntryAt_spec G (x := a) (y := c) (z := d)
      (by rw [g.num]; exact hlt 0 a ha) (by rw [g.num]; exact hlt 1 c hc') (by rw [g.num]; exact hlt 2 d hd)
    rw [g.num] at k1 k2
    refine ⟨k, ?_, k1, k2⟩
    unfold getMaxEntryPos; rw [hpos p, hp]; exact e1

/-- **C62**, volumes: `computeVolumeInformation` counts the reachable positions and those of them that are
at the border of the grid or have a neighbour that is not reachable, exactly. -/
theorem C62_volume_counts (h : initialize' b stepT stepR lo hi adj = some r) (hf : FitsGrid r)
    (cs : List Call) (hc : ∀ c ∈ cs, Valid r c) :
    ∃ r' i, runCalls r cs = some r' ∧ computeVolumeInformation r' = some i ∧
      i.voxelCount = r.num 0 * r.num 1 * r.num 2 ∧
      i.filled = countPositions (sizesOf r.num)
        (ReachableAt (sizesOf r.num) (content (getVoxelFromPose r) (sizesOf r.num) adj cs)) ∧
      i.border = countPositions (sizesOf r.num) (fun x y z =>
        ReachableAt (sizesOf r.num) (content (getVoxelFromPose r) (sizesOf r.num) adj cs) x y z ∧
        BorderAt (sizesOf r.num) (content (getVoxelFromPose r) (sizesOf r.num) adj cs) x y z) ∧
      i.volumeVoxel = (stepT / 1000) ^ 3 ∧ i.volumeFilled = i.filled * i.volumeVoxel ∧
      i.volume = (i.filled - i.border / 2) * i.volumeVoxel := by
  obtain ⟨r', e, g, G, -⟩ := reach h hf cs hc
  classical
  have hl := volumeLoop_spec G (positions (sizesOf r'.num)) (fun _ h => h) (0, 0)
  rw [positions_count (sizesOf r'.num) (ReachableAt (sizesOf r'.num) _),
    positions_count (sizesOf r'.num) (fun x y z =>
      ReachableAt (sizesOf r'.num) (content (getVoxelFromPose r) (sizesOf r.num) adj cs) x y z ∧
      BorderAt (sizesOf r'.num) (content (getVoxelFromPose r) (sizesOf r.num) adj cs) x y z)] at hl
  have hst : r'.stepT = stepT := by rw [g.stepT]; exact (initialize_eq h).2.2.2.2.2.1
  simp only [Nat.zero_add] at hl
  refine ⟨r', _, e, by unfold computeVolumeInformation; rw [hl]; rfl, ?_, ?_, ?_, ?_, rfl, ?_⟩
  · simp only [g.num]
  · simp only [g.num]
  · simp only [g.num]
  · simp only [hst]; ring
  · simp only; ring

/-- The volumes themselves are too large: the volume taken for one voxel is the cube of the requested step
size, which is larger than the volume of a voxel in every representation, so the total exceeds the volume
of the workspace. -/
theorem C62_volume_overestimated (h : initialize' b stepT stepR lo hi adj = some r) (hf : FitsGrid r)
    (cs : List Call) (hc : ∀ c ∈ cs, Valid r c) :
    ∃ r' i, runCalls r cs = some r' ∧ computeVolumeInformation r' = some i ∧
      edge r 0 / 1000 * (edge r 1 / 1000) * (edge r 2 / 1000) < i.volumeVoxel ∧
      (hi 0 - lo 0) / 1000 * ((hi 1 - lo 1) / 1000) * ((hi 2 - lo 2) / 1000) <
        i.voxelCount * i.volumeVoxel := by
  obtain ⟨r', i, e, hi', h1, -, -, h4, -, -⟩ := C62_volume_counts h hf cs hc
  have ok := (initialize_eq h).2.2.1
  have hgrid := ((C60_grid b stepT stepR lo hi adj).2 r h).2.2
  have hlt : ∀ k : Fin 6, k.1 < 3 → 0 < edge r k ∧ edge r k < stepT := by
    intro k hk
    refine ⟨edge_pos ok k, ?_⟩
    have := (hgrid k).2.2.1
    unfold stepOf at this; rwa [if_pos hk] at this
  obtain ⟨p0, q0⟩ := hlt 0 (by decide)
  obtain ⟨p1, q1⟩ := hlt 1 (by decide)
  obtain ⟨p2, q2⟩ := hlt 2 (by decide)
  have hvox : edge r 0 / 1000 * (edge r 1 / 1000) * (edge r 2 / 1000) < (stepT / 1000) ^ 3 := by
    have a0 : edge r 0 / 1000 < stepT / 1000 := by linarith
    have a1 : edge r 1 / 1000 < stepT / 1000 := by linarith
    have a2 : edge r 2 / 1000 < stepT / 1000 := by linarith
    have b0 : 0 < edge r 0 / 1000 := by positivity
    have b1 : 0 < edge r 1 / 1000 := by positivity
    have b2 : 0 < edge r 2 / 1000 := by positivity
    calc edge r 0 / 1000 * (edge r 1 / 1000) * (edge r 2 / 1000)
        < stepT / 1000 * (stepT / 1000) * (stepT / 1000) := by gcongr
      _ = (stepT / 1000) ^ 3 := by ring
  refine ⟨r', i, e, hi', by rw [h4]; exact hvox, ?_⟩
  rw [h1, h4]
  have g0 := (hgrid 0).2.1
  have g1 := (hgrid 1).2.1
  have g2 := (hgrid 2).2.1
  have n0 : (0 : ℝ) < r.num 0 := by exact_mod_cast ok.num 0
  have n1 : (0 : ℝ) < r.num 1 := by exact_mod_cast ok.num 1
  have n2 : (0 : ℝ) < r.num 2 := by exact_mod_cast ok.num 2
  rw [← g0, ← g1, ← g2]
  push_cast
  calc (r.num 0 : ℝ) * edge r 0 / 1000 * (r.num 1 * edge r 1 / 1000) * (r.num 2 * edge r 2 / 1000)
      = r.num 0 * r.num 1 * r.num 2 * (edge r 0 / 1000 * (edge r 1 / 1000) * (edge r 2 / 1000)) := by ring
    _ < r.num 0 * r.num 1 * r.num 2 * (stepT / 1000) ^ 3 := by
        apply mul_lt_mul_of_pos_left hvox; positivity

/-- `fillHoles` does not fill holes: it never makes a pose covered that was not, and never one uncovered
that was, whatever the workspace and the number of neighbours. -/
theorem C62_fill_holes_fills_nothing (h : initialize' b stepT stepR lo hi adj = some r) (hf : FitsGrid r)
    (cs : List Call) (hc : ∀ c ∈ cs, Valid r c) (m : Nat) (hm : m < 2 ^ 31) :
    ∃ r' r'' n, runCalls r cs = some r' ∧ fillHoles m r' = some (r'', n) ∧
      ∀ x, isCovered r'' x = isCovered r' x := by
  obtain ⟨r', e, g, G, -⟩ := reach h hf cs hc
  obtain ⟨r'', n, e2, -, g2, -, -, -, G2⟩ := fillHoles_spec G hm
  refine ⟨r', r'', n, e, e2, fun x => ?_⟩
  unfold isCovered getEntry dataGet
  rw [g2.addr]
  cases ha : getVoxelFromPose r' x with
  | none => rfl
  | some v =>
    have hv := addr_inRange G.ok ha
    simp only
    rw [G.get hv, G2.get (by rw [g2.num]; exact hv)]
    simp only [Option.map_some, Option.some.injEq, decide_eq_decide]
    constructor
    · intro hp
      by_contra h0
      exact effect_sound (adj := adj) _ (.fillHoles m) v (by omega) hp
    · intro hp
      exact effect_keeps _ (.fillHoles m) v (by simp [Erases]) hp

/-- What it does: it replaces the entry of every covered inner voxel with enough covered neighbours by the
average of these, and returns their number. -/
theorem C62_fill_holes_smooths (h : initialize' b stepT stepR lo hi adj = some r) (hf : FitsGrid r)
    (cs : List Call) (hc : ∀ c ∈ cs, Valid r c) (m : Nat) (hm : m < 2 ^ 31) :
    ∃ r' r'' n, runCalls r cs = some r' ∧ fillHoles m r' = some (r'', n) ∧
      (∃ l : List Vox, l.Nodup ∧ l.length = n ∧
        ∀ v, v ∈ l ↔ Smoothed (sizesOf r.num) m (content (getVoxelFromPose r) (sizesOf r.num) adj cs) v) ∧
      ∀ v, IsIndex r v →
        (Smoothed (sizesOf r.num) m (content (getVoxelFromPose r) (sizesOf r.num) adj cs) v →
          getVoxelEntry r'' v = some
            (((around v).map (content (getVoxelFromPose r) (sizesOf r.num) adj cs)).sum /
              coveredAround (content (getVoxelFromPose r) (sizesOf r.num) adj cs) v)) ∧
        (¬ Smoothed (sizesOf r.num) m (content (getVoxelFromPose r) (sizesOf r.num) adj cs) v →
          getVoxelEntry r'' v = getVoxelEntry r' v) := by
  classical
  obtain ⟨r', e, g, G, -⟩ := reach h hf cs hc
  obtain ⟨r'', n, e2, hn, g2, -, -, -, G2⟩ := fillHoles_spec G hm
  have hread : ∀ (q : Rep) (s : Vox → Nat), SameGrid r q → Good adj q s → ∀ v, IsIndex r v →
      getVoxelEntry q v = some (s v) := by
    intro q s gq Gq v hv
    have hv' : InRange (sizesOf q.num) v := by
      rw [gq.num]; exact (sizes_inRange (initialize_eq h).2.2.1 v).2 hv
    have hlt : ∀ i, ¬ i32 (at6 v i) ≥ q.num i := by
      intro i
      have h1 := hv i
      have h2 := hf.2.2 i
      rw [gq.num, i32_nat (by omega)]; omega
    unfold getVoxelEntry
    rw [if_neg]
    · exact Gq.get hv'
    · rintro (h | h | h | h | h | h)
      · exact hlt 0 h
      · exact hlt 1 h
      · exact hlt 2 h
      · exact hlt 3 h
      · exact hlt 4 h
      · exact hlt 5 h
  have haddr : getVoxelFromPose r' = getVoxelFromPose r := funext fun x => g.addr x
  rw [haddr, g.num] at G2
  refine ⟨r', r'', n, e, e2, ⟨(interior (sizesOf r.num)).filter fun v =>
      decide (0 < content (getVoxelFromPose r) (sizesOf r.num) adj cs v ∧
        max m 1 ≤ coveredAround (content (getVoxelFromPose r) (sizesOf r.num) adj cs) v),
      (nodup_interior _).filter _, ?_, ?_⟩, ?_⟩
  · rw [hn, g.num, List.countP_eq_length_filter]
  · intro v
    simp only [List.mem_filter, mem_interior, decide_eq_true_eq]
    unfold Smoothed; rfl
  · intro v hv
    have h1 := hread r'' _ (g.trans g2) G2 v hv
    have h0 := hread r' _ g G v hv
    simp only [effect] at h1
    constructor
    · intro hs; rw [h1, if_pos hs]
    · intro hs; rw [h1, if_neg hs, h0]

/-- Large arguments are undefined: compared as `int`, `minNeighbors = 2^31` is negative, and an isolated
covered voxel leads to a division by zero. -/
theorem C62_fill_holes_division_by_zero :
    ∃ r, initialize' true 2 2 smallLo smallHi true = some r ∧
      runCalls r [.setVoxel ⟨1, 1, 1, 1, 1, 1⟩ 3, .fillHoles (2 ^ 31)] = none := by
  obtain ⟨r, h, hn⟩ := small_ok
  have hf : FitsGrid r := by
    unfold FitsGrid; rw [hn]; exact ⟨by norm_num, by norm_num, fun _ => by norm_num⟩
  have hi' : IsIndex r ⟨1, 1, 1, 1, 1, 1⟩ := by
    intro i; rw [hn]; fin_cases i <;> decide
  obtain ⟨r', e, g, G, -⟩ := reach h hf [.setVoxel ⟨1, 1, 1, 1, 1, 1⟩ 3] (by
    intro c hc; simp only [List.mem_singleton] at hc; subst hc; exact ⟨hi', by decide⟩)
  refine ⟨r, h, ?_⟩
  have : [Call.setVoxel ⟨1, 1, 1, 1, 1, 1⟩ 3, .fillHoles (2 ^ 31)] =
    [Call.setVoxel ⟨1, 1, 1, 1, 1, 1⟩ 3] ++ [.fillHoles (2 ^ 31)] := rfl
  rw [this, runCalls_append, e, Option.bind_some]
  simp only [runCalls, callStep]
  suffices fillHoles (2 ^ 31) r' = none by rw [this]; rfl
  have hsz : sizesOf r'.num = ⟨3, 3, 3, 3, 3, 3⟩ := by rw [g.num, hn]; rfl
  have hint : interior (sizesOf r'.num) = [⟨1, 1, 1, 1, 1, 1⟩] := by rw [hsz]; decide
  have hval : ∀ u, InRange ⟨3, 3, 3, 3, 3, 3⟩ u → Workspace.get r'.data u =
      some (if u = ⟨1, 1, 1, 1, 1, 1⟩ then 3 else 0) := by
    intro u hu
    rw [G.get (by rw [hsz]; exact hu)]
    simp [content, effect]
  have hstep : ∀ acc, fillStep r'.data (2 ^ 31) acc ⟨1, 1, 1, 1, 1, 1⟩ = none := by
    intro acc
    unfold fillStep
    rw [hval _ (by decide),
      sumCovered_eq (s := fun u => if u = ⟨1, 1, 1, 1, 1, 1⟩ then 3 else 0) (twelve ⟨1, 1, 1, 1, 1, 1⟩)
        (fun u hu => hval u (around_inRange (by unfold Inner; decide) u hu))]
    have h0 : (twelve ⟨1, 1, 1, 1, 1, 1⟩).countP
        (fun u => decide ((if u = ⟨1, 1, 1, 1, 1, 1⟩ then 3 else 0) > 0)) = 0 := by decide
    rw [h0]
    simp only [Option.bind_eq_bind, Option.bind_some]
    rw [if_pos (by decide), if_pos (by decide)]
    rfl
  unfold fillHoles
  rw [hint]
  simp only [fillLoop]
  rw [if_neg (by decide), hstep]
  rfl

/-- `getVoxelEntry` of an index outside the grid is zero, as long as the index is below 2^31 -/
theorem C62_voxel_entry_outside (h : initialize' b stepT stepR lo hi adj = some r) (hf : FitsGrid r)
    (cs : List Call) (hc : ∀ c ∈ cs, Valid r c) (v : Vox) (hv : ¬ IsIndex r v) (hs : ∀ i, at6 v i < 2 ^ 31) :
    ∃ r', runCalls r cs = some r' ∧ getVoxelEntry r' v = some 0 := by
  obtain ⟨r', e, g, G, -⟩ := reach h hf cs hc
  refine ⟨r', e, ?_⟩
  unfold IsIndex at hv
  push Not at hv
  obtain ⟨i, hi'⟩ := hv
  unfold getVoxelEntry
  rw [if_pos]
  have hge : i32 (at6 v i) ≥ r'.num i := by rw [g.num, i32_nat (hs i)]; exact hi'
  fin_cases i
  · exact Or.inl hge
  · exact Or.inr (Or.inl hge)
  · exact Or.inr (Or.inr (Or.inl hge))
  · exact Or.inr (Or.inr (Or.inr (Or.inl hge)))
  · exact Or.inr (Or.inr (Or.inr (Or.inr (Or.inl hge))))
  · exact Or.inr (Or.inr (Or.inr (Or.inr (Or.inr hge))))

/-- ... from 2^31 on the check does not reject it, and the read is out of bounds. -/
theorem C62_voxel_entry_out_of_bounds :
    ∃ r, initialize' true 2 2 smallLo smallHi true = some r ∧
      getVoxelEntry r ⟨2 ^ 31, 0, 0, 0, 0, 0⟩ = none := by
  obtain ⟨r, h, hn⟩ := small_ok
  refine ⟨r, h, ?_⟩
  have hsz : r.data.sizes = ⟨3, 3, 3, 3, 3, 3⟩ := by rw [(initialize_eq h).2.2.2.2.2.2.2.2.1, hn]; rfl
  unfold getVoxelEntry
  rw [hn, if_neg (by decide)]
  unfold Workspace.get
  rw [hsz, if_neg (by decide)]

/-- **C62**, sampling: whatever indices of the grid are drawn, a sampled pose is covered, namely the centre
of a covered voxel that was drawn, and "could not find a valid pose" is reported exactly if no covered
voxel was drawn. -/
theorem C62_sample (h : initialize' b stepT stepR lo hi adj = some r) (hf : FitsGrid r)
    (cs : List Call) (hc : ∀ c ∈ cs, Valid r c) (draws : List Vox) (hd : ∀ v ∈ draws, IsIndex r v) :
    ∃ r' o, runCalls r cs = some r' ∧ sampleCovered r' draws = some o ∧
      (∀ x, o = some x → isCovered r' x = some true ∧ ∃ v ∈ draws, InVoxel r v x ∧
        ∀ i, x i = r.lo i + (at6 v i + 1 / 2) * edge r i) ∧
      (o = none ↔ ∀ v ∈ draws, content (getVoxelFromPose r) (sizesOf r.num) adj cs v = 0) := by
  obtain ⟨r', e, g, G, -⟩ := reach h hf cs hc
  have ok := (initialize_eq h).2.2.1
  have hcen : ∀ v, centre r' v = centre r v := by
    intro v; unfold centre coordsOf getVoxelSize; rw [g.lo, g.num, g.space]
  induction draws with
  | nil => exact ⟨r', none, e, rfl, by simp, by simp⟩
  | cons v l ih =>
    obtain ⟨r1, o, e1, e2, h1, h2⟩ := ih fun u hu => hd u (List.mem_cons_of_mem _ hu)
    rw [e] at e1
    have := Option.some.inj e1
    subst this
    have hv := hd v (List.mem_cons_self ..)
    have hget := G.get (u := v) (by rw [g.num]; exact (sizes_inRange ok v).2 hv)
    by_cases hp : content (getVoxelFromPose r) (sizesOf r.num) adj cs v > 0
    · refine ⟨r', some (centre r' v), e, ?_, ?_, ?_⟩
      · simp only [sampleCovered, hget, Option.bind_eq_bind, Option.bind_some, if_pos hp]; rfl
      · intro x hx
        have := Option.some.inj hx
        subst this
        obtain ⟨c1, c2⟩ := C60_centre h v hv
        have hin : Inside r (centre r v) := by
          intro i
          have hk : (at6 v i : ℝ) + 1 ≤ r.num i := by exact_mod_cast hv i
          have hm := edge_mul ok i
          have := edge_pos ok i
          have h0 : (0 : ℝ) ≤ at6 v i := Nat.cast_nonneg _
          rw [c2 i]
          constructor <;> nlinarith
        refine ⟨?_, v, List.mem_cons_self .., ?_, fun i => by rw [hcen]; exact c2 i⟩
        · unfold isCovered getEntry dataGet
          rw [g.addr, hcen, c1]
          simp only
          rw [hget]; simpa using hp
        · rw [hcen]; exact (((C60_inside h _ hin).2 v).1 c1).2
      · constructor
        · intro hh; exact absurd hh (by simp)
        · intro hh; have := hh v (List.mem_cons_self ..); omega
    · refine ⟨r', o, e, ?_, ?_, ?_⟩
      · simp only [sampleCovered, hget, Option.bind_eq_bind, Option.bind_some, if_neg hp]; exact e2
      · intro x hx
        obtain ⟨q1, u, hu, q2⟩ := h1 x hx
        exact ⟨q1, u, List.mem_cons_of_mem _ hu, q2⟩
      · rw [h2]
        constructor
        · intro hh u hu
          rcases List.mem_cons.1 hu with rfl | hu
          · omega
          · exact hh u hu
        · intro hh u hu; exact hh u (List.mem_cons_of_mem _ hu)

/-! ## Non-vacuity

The hypotheses are those of `C61_contents`, shown satisfiable there; `Smoothed` voxels exist: -/

example : Smoothed ⟨3, 3, 3, 3, 3, 3⟩ 2 (fun _ => 5) ⟨1, 1, 1, 1, 1, 1⟩ := by
  refine ⟨by unfold Inner; decide, by decide, by decide⟩

end Simox.Wsr
