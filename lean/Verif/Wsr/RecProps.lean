import Verif.Wsr.RecLemmas
import Verif.Wsr.Props

/-!
# Property C61: recording poses

`r` is a freshly initialised representation whose grid fits the index arithmetic, `cs` any history of
calls with arguments in range.
-/

namespace Simox.Wsr

open Workspace Spec
open Workspace.Spec (InRange Fits InCube)

variable {b : Bool} {stepT stepR : ℝ} {lo hi : Fin 6 → ℝ} {adj : Bool} {r : Rep}

/-- **C61**, contents: a history never runs into undefined behaviour, and afterwards every entry that can
be read (by voxel or by pose) is the one of the plain map of the specification; poses without a voxel read
as zero. -/
theorem C61_contents (h : initialize' b stepT stepR lo hi adj = some r) (hf : FitsGrid r)
    (cs : List Call) (hc : ∀ c ∈ cs, Valid r c) :
    ∃ r', runCalls r cs = some r' ∧
      (∀ v, IsIndex r v → getVoxelEntry r' v =
        some (content (getVoxelFromPose r) (sizesOf r.num) adj cs v)) ∧
      (∀ x, getEntry r' x = some (match getVoxelFromPose r x with
        | none => 0
        | some v => content (getVoxelFromPose r) (sizesOf r.num) adj cs v)) := by
  obtain ⟨r', e, g, G, -⟩ := reach h hf cs hc
  refine ⟨r', e, fun v hv => ?_, fun x => ?_⟩
  · have hv' : InRange (sizesOf r'.num) v := by
      rw [g.num]; exact (sizes_inRange (initialize_eq h).2.2.1 v).2 hv
    have hlt : ∀ i, ¬ i32 (at6 v i) ≥ r'.num i := by
      intro i
      have h1 := hv i
      have h2 := hf.2.2 i
      rw [g.num, i32_nat (by omega)]; omega
    unfold getVoxelEntry
    rw [if_neg]
    · exact G.get hv'
    · rintro (h | h | h | h | h | h)
      · exact hlt 0 h
      · exact hlt 1 h
      · exact hlt 2 h
      · exact hlt 3 h
      · exact hlt 4 h
      · exact hlt 5 h
  · unfold getEntry dataGet
    rw [g.addr]
    cases ha : getVoxelFromPose r x with
    | none => rfl
    | some v => exact G.get (addr_inRange G.ok (by rw [g.addr]; exact ha))

/-- **C61**, statistics: the number of build-up loops is the number of recording calls since the last
`clear`, and (for poses within the range of a float) the achieved bounds are the smallest and largest
coordinates of the poses recorded since then, and `FLT_MAX`, `-FLT_MAX` if there are none. -/
theorem C61_achieved (h : initialize' b stepT stepR lo hi adj = some r) (hf : FitsGrid r)
    (cs : List Call) (hc : ∀ c ∈ cs, Valid r c)
    (hx : ∀ c ∈ cs, ∀ x, poseOf c = some x → ∀ i, -fltMax ≤ x i ∧ x i ≤ fltMax) :
    ∃ r', runCalls r cs = some r' ∧ r'.loops = (sinceClear cs).countP counts ∧
      (recorded cs = [] → ∀ i, r'.achLo i = fltMax ∧ r'.achHi i = -fltMax) ∧
      ∀ i, (∀ x ∈ recorded cs, r'.achLo i ≤ x i ∧ x i ≤ r'.achHi i) ∧
        (recorded cs ≠ [] → (∃ x ∈ recorded cs, r'.achLo i = x i) ∧ ∃ x ∈ recorded cs, r'.achHi i = x i) := by
  obtain ⟨r', e, -, -, hl, ha, hb⟩ := reach h hf cs hc
  refine ⟨r', e, hl, ?_, fun i => ?_⟩
  · intro hn i; rw [ha, hb]; simp only [hn, List.foldl_nil, and_self]
  · have hmem : ∀ x ∈ recorded cs, -fltMax ≤ x i ∧ x i ≤ fltMax := by
      intro x hx'
      unfold recorded at hx'
      obtain ⟨c, hc', hp⟩ := List.mem_filterMap.1 hx'
      have : c ∈ cs := by
        unfold sinceClear at hc'
        have := (List.takeWhile_prefix (p := fun c => match c with | Call.clear => false | _ => true)
          (l := cs.reverse)).subset (List.mem_reverse.1 hc')
        exact List.mem_reverse.1 this
      exact hx c this x hp i
    obtain ⟨-, m2, m3⟩ := foldl_min_spec (fun x : Fin 6 → ℝ => x i) (recorded cs) fltMax
    obtain ⟨-, M2, M3⟩ := foldl_max_spec (fun x : Fin 6 → ℝ => x i) (recorded cs) (-fltMax)
    rw [ha, hb]
    refine ⟨fun x hx' => ⟨m2 x hx', M2 x hx'⟩, fun hne => ?_⟩
    obtain ⟨y, hy⟩ := List.exists_mem_of_ne_nil _ hne
    constructor
    · rcases m3 with m3 | m3
      · exact ⟨y, hy, le_antisymm (m2 y hy) (by simp only [m3]; exact (hmem y hy).2)⟩
      · exact m3
    · rcases M3 with M3 | M3
      · exact ⟨y, hy, le_antisymm (by simp only [M3]; exact (hmem y hy).1) (M2 y hy)⟩
      · exact M3

/-- **C61**, coverage, completeness: a voxel that was written by some call is covered after any further
calls that do not write zeros or clear, whatever overflow adjustment, binarisation, smoothing or cloning
happens in between; so a recorded pose within the bounds stays covered. -/
theorem C61_recorded_stays_covered (h : initialize' b stepT stepR lo hi adj = some r) (hf : FitsGrid r)
    (before : List Call) (c : Call) (after : List Call)
    (hc : ∀ d ∈ before ++ c :: after, Valid r d) (u : Vox) (hu : IsIndex r u)
    (hw : Writes (getVoxelFromPose r) u c) (hne : ∀ d ∈ after, ¬ Erases d) :
    ∃ r', runCalls r (before ++ c :: after) = some r' ∧ (∃ e, getVoxelEntry r' u = some e ∧ 0 < e) ∧
      ∀ x, getVoxelFromPose r x = some u → isCovered r' x = some true := by
  obtain ⟨r', e, h1, h2⟩ := C61_contents h hf _ hc
  have hpos : 0 < content (getVoxelFromPose r) (sizesOf r.num) adj (before ++ c :: after) u := by
    have e' : before ++ c :: after = (before ++ [c]) ++ after := by simp
    unfold content
    rw [e', List.foldl_append, List.foldl_append]
    simp only [List.foldl_cons, List.foldl_nil]
    generalize List.foldl (effect (getVoxelFromPose r) (sizesOf r.num) adj) (fun _ => 0) before = s
    have h0 := effect_writes (sz := sizesOf r.num) (adj := adj) s c u hw
    generalize effect (getVoxelFromPose r) (sizesOf r.num) adj s c = t at h0
    clear e e' h1 h2 hc
    induction after generalizing t with
    | nil => exact h0
    | cons d ds ih =>
      exact ih (fun d' h' => hne d' (List.mem_cons_of_mem _ h')) _
        (effect_keeps t d u (hne d (List.mem_cons_self ..)) h0)
  refine ⟨r', e, ⟨_, h1 u hu, hpos⟩, fun x hx => ?_⟩
  unfold isCovered
  rw [h2 x, hx]
  simpa using hpos

/-- **C61**, coverage, soundness: whatever is covered was written by some call since the last `clear`. -/
theorem C61_covered_was_recorded (h : initialize' b stepT stepR lo hi adj = some r) (hf : FitsGrid r)
    (cs : List Call) (hc : ∀ c ∈ cs, Valid r c) (x : Fin 6 → ℝ) (r' : Rep)
    (hr : runCalls r cs = some r') (hcov : isCovered r' x = some true) :
    ∃ u, getVoxelFromPose r x = some u ∧ ∃ c ∈ sinceClear cs, Writes (getVoxelFromPose r) u c := by
  obtain ⟨r1, e, -, h2⟩ := C61_contents h hf cs hc
  rw [hr] at e
  have := Option.some.inj e
  subst this
  unfold isCovered at hcov
  rw [h2 x] at hcov
  cases ha : getVoxelFromPose r x with
  | none => rw [ha] at hcov; simp at hcov
  | some u =>
    rw [ha] at hcov
    have hpos : 0 < content (getVoxelFromPose r) (sizesOf r.num) adj cs u := by simpa using hcov
    refine ⟨u, rfl, ?_⟩
    clear hcov hr h2 hc
    induction cs using List.reverseRecOn with
    | nil => simp [content] at hpos
    | append_singleton cs c ih =>
      have hcl : c ≠ .clear := by
        rintro rfl
        simp [content, effect] at hpos
      have hs : sinceClear (cs ++ [c]) = sinceClear cs ++ [c] := by
        rw [sinceClear_append]; cases c <;> first | rfl | exact absurd rfl hcl
      rw [hs]
      rcases Nat.eq_zero_or_pos (content (getVoxelFromPose r) (sizesOf r.num) adj cs u) with h0 | h0
      · refine ⟨c, by simp, effect_sound (sz := sizesOf r.num) (adj := adj)
          (content (getVoxelFromPose r) (sizesOf r.num) adj cs) c u h0 ?_⟩
        unfold content at hpos ⊢
        rw [List.foldl_append] at hpos; exact hpos
      · obtain ⟨d, hd, hw⟩ := ih h0
        exact ⟨d, List.mem_append_left _ hd, hw⟩

/-- **C61**, `setCurrentTCPPoseEntryIfLower`: if only such calls are made, every entry is the largest value
given for a pose of its voxel. -/
theorem C61_if_lower_is_max (h : initialize' b stepT stepR lo hi adj = some r) (hf : FitsGrid r)
    (l : List ((Fin 6 → ℝ) × Nat)) (hl : ∀ p ∈ l, p.2 ≤ 255) (v : Vox) (hv : IsIndex r v) :
    ∃ r' e, runCalls r (l.map fun p => .setIfLower p.1 p.2) = some r' ∧ getVoxelEntry r' v = some e ∧
      (∀ p ∈ l, getVoxelFromPose r p.1 = some v → p.2 ≤ e) ∧
      (e = 0 ∨ ∃ p ∈ l, getVoxelFromPose r p.1 = some v ∧ p.2 = e) := by
  obtain ⟨r', e, h1, -⟩ := C61_contents h hf (l.map fun p => .setIfLower p.1 p.2) (by
    intro c hc'
    obtain ⟨p, hp, rfl⟩ := List.mem_map.1 hc'
    exact hl p hp)
  refine ⟨r', _, e, h1 v hv, ?_⟩
  clear e h1 hl
  induction l using List.reverseRecOn with
  | nil => simp [content]
  | append_singleton l p ih =>
    obtain ⟨i1, i2⟩ := ih
    have hs : content (getVoxelFromPose r) (sizesOf r.num) adj
        ((l ++ [p]).map fun p => .setIfLower p.1 p.2) v =
        if getVoxelFromPose r p.1 = some v then
          max (content (getVoxelFromPose r) (sizesOf r.num) adj (l.map fun p => .setIfLower p.1 p.2) v) p.2
        else content (getVoxelFromPose r) (sizesOf r.num) adj (l.map fun p => .setIfLower p.1 p.2) v := by
      unfold content
      rw [List.map_append, List.foldl_append]
      simp only [List.map_cons, List.map_nil, List.foldl_cons, List.foldl_nil, effect]
      cases ha : getVoxelFromPose r p.1 with
      | none => simp
      | some w =>
        simp only [Option.some.injEq]
        by_cases hw : v = w
        · subst hw; simp
        · rw [if_neg hw, if_neg fun h => hw h.symm]
    rw [hs]
    generalize content (getVoxelFromPose r) (sizesOf r.num) adj (l.map fun p => .setIfLower p.1 p.2) v = k at i1 i2
    by_cases hp : getVoxelFromPose r p.1 = some v
    · rw [if_pos hp]
      constructor
      · intro q hq hqv
        rcases List.mem_append.1 hq with hq | hq
        · have := i1 q hq hqv; omega
        · simp only [List.mem_singleton] at hq; subst hq; omega
      · rcases le_total k p.2 with hk | hk
        · right; exact ⟨p, by simp, hp, by omega⟩
        · rcases i2 with i2 | ⟨q, hq, hqv, i2⟩
          · left; omega
          · right; exact ⟨q, List.mem_append_left _ hq, hqv, by omega⟩
    · rw [if_neg hp]
      constructor
      · intro q hq hqv
        rcases List.mem_append.1 hq with hq | hq
        · exact i1 q hq hqv
        · simp only [List.mem_singleton] at hq; subst hq; exact absurd hqv hp
      · rcases i2 with i2 | ⟨q, hq, hqv, i2⟩
        · left; exact i2
        · right; exact ⟨q, List.mem_append_left _ hq, hqv, i2⟩

/-- **C61**, hit counts: recording poses only, and at most 255 of them per voxel, the entry of a voxel is
the number of poses recorded in it. -/
theorem C61_hits (h : initialize' b stepT stepR lo hi adj = some r) (hf : FitsGrid r)
    (l : List (Fin 6 → ℝ)) (hl : ∀ v, l.countP (fun x => decide (getVoxelFromPose r x = some v)) ≤ 255)
    (v : Vox) (hv : IsIndex r v) :
    ∃ r', runCalls r (l.map .addPose) = some r' ∧
      getVoxelEntry r' v = some (l.countP fun x => decide (getVoxelFromPose r x = some v)) := by
  obtain ⟨r', e, h1, -⟩ := C61_contents h hf (l.map .addPose) (by
    intro c hc'
    obtain ⟨p, hp, rfl⟩ := List.mem_map.1 hc'
    trivial)
  refine ⟨r', e, ?_⟩
  rw [h1 v hv]
  congr 1
  clear e h1 hv
  induction l using List.reverseRecOn generalizing v with
  | nil => rfl
  | append_singleton l x ih =>
    have hl' : ∀ v, l.countP (fun x => decide (getVoxelFromPose r x = some v)) ≤ 255 := by
      intro v; have := hl v; rw [List.countP_append] at this; omega
    have ih := ih hl'
    have hs : content (getVoxelFromPose r) (sizesOf r.num) adj ((l ++ [x]).map .addPose) v =
        effect (getVoxelFromPose r) (sizesOf r.num) adj
          (content (getVoxelFromPose r) (sizesOf r.num) adj (l.map .addPose)) (.addPose x) v := by
      unfold content
      rw [List.map_append, List.foldl_append]; rfl
    rw [hs, List.countP_append]
    cases ha : getVoxelFromPose r x with
    | none => rw [effect_addPose_none _ x ha, ih v]; simp [List.countP_cons, ha]
    | some w =>
      rw [effect_addPose_some _ x w v ha]
      have hw := hl w
      rw [List.countP_append] at hw
      simp only [List.countP_cons, ha, List.countP_nil] at hw
      rw [if_pos (by rw [ih w]; simp at hw; omega)]
      simp only [List.countP_cons, ha, List.countP_nil, Option.some.injEq]
      by_cases hvw : v = w
      · subst hvw; simp [ih v]
      · rw [if_neg hvw, ih v]; simp [Ne.symm hvw]

/-! ## Non-vacuity -/

/-- A small workspace whose grid fits. -/
noncomputable def smallLo : Fin 6 → ℝ := fun _ => 0
/-- Upper bounds. -/
noncomputable def smallHi : Fin 6 → ℝ := fun _ => 5

theorem small_ok : ∃ r, initialize' true 2 2 smallLo smallHi true = some r ∧ r.num = fun _ => 3 := by
  have := (C60_grid true 2 2 smallLo smallHi true).1
  cases h : initialize' true 2 2 smallLo smallHi true with
  | some r =>
    refine ⟨r, rfl, ?_⟩
    rw [(initialize_eq h).2.2.2.2.2.2.2.1]
    funext i
    have h2 : stepOf 2 2 i = 2 := by unfold stepOf; split <;> rfl
    have : ⌊((5 - 0) / 2 : ℝ)⌋ = 2 := by rw [Int.floor_eq_iff]; norm_num
    unfold voxelCount toInt smallHi smallLo
    rw [h2, if_pos (by norm_num), this]; rfl
  | none =>
    rcases this.1 h with h | h | ⟨i, h⟩ | h
    · norm_num at h
    · norm_num at h
    · norm_num [smallLo, smallHi] at h
    · exact absurd h (by decide)

/-- It fits, and a history with all kinds of calls is valid for it. -/
example : ∃ r, initialize' true 2 2 smallLo smallHi true = some r ∧ FitsGrid r ∧
    (∀ c ∈ [Call.addPose fun _ => 1, .setIfLower (fun _ => 3) 7, .setEntry (fun _ => 4) 9 1,
      .setVoxel ⟨1, 1, 1, 1, 1, 1⟩ 3, .binarize, .fillHoles 2, .clear, .goOnWithClone], Valid r c) ∧
    Writes (getVoxelFromPose r) ⟨1, 1, 1, 1, 1, 1⟩ (.setVoxel ⟨1, 1, 1, 1, 1, 1⟩ 3) := by
  obtain ⟨r, h, hn⟩ := small_ok
  have hi : IsIndex r ⟨1, 1, 1, 1, 1, 1⟩ := by
    intro i; rw [hn]; fin_cases i <;> decide
  refine ⟨r, h, ?_, ?_, ⟨rfl, by decide⟩⟩
  · unfold FitsGrid; rw [hn]; exact ⟨by norm_num, by norm_num, fun _ => by norm_num⟩
  · intro c hc
    simp only [List.mem_cons, List.not_mem_nil, or_false] at hc
    rcases hc with rfl | rfl | rfl | rfl | rfl | rfl | rfl | rfl
    · trivial
    · show 7 ≤ 255; decide
    · exact ⟨by decide, fun i => by rw [hn]; norm_num⟩
    · exact ⟨hi, by decide⟩
    · trivial
    · show 2 < 2 ^ 31; decide
    · trivial
    · trivial

end Simox.Wsr
