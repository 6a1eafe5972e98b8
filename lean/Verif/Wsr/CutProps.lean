import Verif.Wsr.QueryProps

/-!
# Property C63: extents and cuts of the workspace
-/

namespace Simox.Wsr

open Workspace Spec Jac Kin

/-! ## Bounding box -/

theorem toGlobalVec_some (b : Pose3) (v : V3) : toGlobalVec (some b) v = b.pos + b.rot • v := rfl

theorem toGlobalVec_none (v : V3) : toGlobalVec none v = v := rfl

theorem growBox_fold (l : List V3) (box : V3 × V3) (i : Fin 3) :
    ((l.foldl growBox box).1 i ≤ box.1 i ∧ ∀ q ∈ l, (l.foldl growBox box).1 i ≤ q i) ∧
    (box.2 i ≤ (l.foldl growBox box).2 i ∧ ∀ q ∈ l, q i ≤ (l.foldl growBox box).2 i) ∧
    ((l.foldl growBox box).1 i = box.1 i ∨ ∃ q ∈ l, (l.foldl growBox box).1 i = q i) ∧
    ((l.foldl growBox box).2 i = box.2 i ∨ ∃ q ∈ l, (l.foldl growBox box).2 i = q i) := by
  induction l generalizing box with
  | nil => simp
  | cons a l ih =>
    obtain ⟨⟨h1, h2⟩, ⟨h3, h4⟩, h5, h6⟩ := ih (growBox box a)
    simp only [List.foldl_cons]
    have e1 : (growBox box a).1 i = min (box.1 i) (a i) := by
      unfold growBox; simp only
      by_cases h : a i < box.1 i
      · rw [if_pos h, min_eq_right h.le]
      · rw [if_neg h, min_eq_left (not_lt.1 h)]
    have e2 : (growBox box a).2 i = max (box.2 i) (a i) := by
      unfold growBox; simp only
      by_cases h : a i > box.2 i
      · rw [if_pos h, max_eq_right h.le]
      · rw [if_neg h, max_eq_left (not_lt.1 h)]
    rw [e1] at h1 h5
    rw [e2] at h3 h6
    refine ⟨⟨h1.trans (min_le_left _ _), ?_⟩, ⟨(le_max_left _ _).trans h3, ?_⟩, ?_, ?_⟩
    · intro q hq
      rcases List.mem_cons.1 hq with rfl | hq
      · exact h1.trans (min_le_right _ _)
      · exact h2 q hq
    · intro q hq
      rcases List.mem_cons.1 hq with rfl | hq
      · exact (le_max_right _ _).trans h3
      · exact h4 q hq
    · rcases h5 with h5 | ⟨q, hq, h5⟩
      · rcases min_choice (box.1 i) (a i) with h | h
        · left; rw [h5, h]
        · right; exact ⟨a, List.mem_cons_self .., by rw [h5, h]⟩
      · right; exact ⟨q, List.mem_cons_of_mem _ hq, h5⟩
    · rcases h6 with h6 | ⟨q, hq, h6⟩
      · rcases max_choice (box.2 i) (a i) with h | h
        · left; rw [h6, h]
        · right; exact ⟨a, List.mem_cons_self .., by rw [h6, h]⟩
      · right; exact ⟨q, List.mem_cons_of_mem _ hq, h6⟩

/-- The corner with the given choice of lower (`false`) and upper bounds. -/
theorem corner_pick (r : Rep) (p q s : Bool) :
    ∃ k < 8, corner r k = ![if p then r.hi 0 else r.lo 0, if q then r.hi 1 else r.lo 1,
      if s then r.hi 2 else r.lo 2] := by
  refine ⟨(if p then 1 else 0) + 2 * (if q then 1 else 0) + 4 * (if s then 1 else 0), ?_, ?_⟩
  · cases p <;> cases q <;> cases s <;> decide
  · cases p <;> cases q <;> cases s <;> simp [corner]

/-- An affine function of the position takes its smallest value over the box at a corner. -/
theorem affine_min (r : Rep) (w : V3) (v : V3) (hv : (r.lo 0 ≤ v 0 ∧ v 0 ≤ r.hi 0) ∧
    (r.lo 1 ≤ v 1 ∧ v 1 ≤ r.hi 1) ∧ (r.lo 2 ≤ v 2 ∧ v 2 ≤ r.hi 2)) :
    ∃ k < 8, w 0 * corner r k 0 + w 1 * corner r k 1 + w 2 * corner r k 2 ≤
      w 0 * v 0 + w 1 * v 1 + w 2 * v 2 := by
  classical
  obtain ⟨k, hk, e⟩ := corner_pick r (decide (w 0 < 0)) (decide (w 1 < 0)) (decide (w 2 < 0))
  refine ⟨k, hk, ?_⟩
  have hle : ∀ (w lo hi v : ℝ), lo ≤ v → v ≤ hi → w * (if w < 0 then hi else lo) ≤ w * v := by
    intro w lo hi v h1 h2
    by_cases h : w < 0
    · rw [if_pos h]; nlinarith
    · rw [if_neg h]; nlinarith
  have a0 := hle (w 0) (r.lo 0) (r.hi 0) (v 0) hv.1.1 hv.1.2
  have a1 := hle (w 1) (r.lo 1) (r.hi 1) (v 1) hv.2.1.1 hv.2.1.2
  have a2 := hle (w 2) (r.lo 2) (r.hi 2) (v 2) hv.2.2.1 hv.2.2.2
  rw [e]
  simp only [decide_eq_true_eq, Matrix.cons_val_zero, Matrix.cons_val_one, Matrix.cons_val]
  linarith

theorem global_coord (base : Option Pose3) (i : Fin 3) :
    ∃ (w : V3) (t : ℝ), ∀ v, toGlobalVec base v i = w 0 * v 0 + w 1 * v 1 + w 2 * v 2 + t := by
  cases base with
  | none =>
    refine ⟨fun j => if j = i then 1 else 0, 0, fun v => ?_⟩
    rw [toGlobalVec_none]
    fin_cases i <;> simp
  | some b =>
    refine ⟨fun j => b.rot.1 i j, b.pos i, fun v => ?_⟩
    rw [toGlobalVec_some, Pi.add_apply, smul_def]
    simp [Matrix.mulVec, dotProduct, Fin.sum_univ_three]
    ring

/-- **C63**, extents: the box returned by `getWorkspaceExtends` contains the global position of everything
within the position bounds, whatever the pose of the base node, and it is the smallest such box: each of
its six faces touches the global position of a corner of the bounds. -/
theorem C63_extents (r : Rep) (base : Option Pose3) (hb : ∀ i, r.lo i ≤ r.hi i) :
    (∀ v : V3, (r.lo 0 ≤ v 0 ∧ v 0 ≤ r.hi 0) ∧ (r.lo 1 ≤ v 1 ∧ v 1 ≤ r.hi 1) ∧
        (r.lo 2 ≤ v 2 ∧ v 2 ≤ r.hi 2) →
      ∀ i, (getWorkspaceExtends r base).1 i ≤ toGlobalVec base v i ∧
        toGlobalVec base v i ≤ (getWorkspaceExtends r base).2 i) ∧
    ∀ i, (∃ v : V3, ((r.lo 0 ≤ v 0 ∧ v 0 ≤ r.hi 0) ∧ (r.lo 1 ≤ v 1 ∧ v 1 ≤ r.hi 1) ∧
        (r.lo 2 ≤ v 2 ∧ v 2 ≤ r.hi 2)) ∧ toGlobalVec base v i = (getWorkspaceExtends r base).1 i) ∧
      ∃ v : V3, ((r.lo 0 ≤ v 0 ∧ v 0 ≤ r.hi 0) ∧ (r.lo 1 ≤ v 1 ∧ v 1 ≤ r.hi 1) ∧
        (r.lo 2 ≤ v 2 ∧ v 2 ≤ r.hi 2)) ∧ toGlobalVec base v i = (getWorkspaceExtends r base).2 i := by
  have hcorner : ∀ k, (r.lo 0 ≤ corner r k 0 ∧ corner r k 0 ≤ r.hi 0) ∧
      (r.lo 1 ≤ corner r k 1 ∧ corner r k 1 ≤ r.hi 1) ∧ (r.lo 2 ≤ corner r k 2 ∧ corner r k 2 ≤ r.hi 2) := by
    intro k
    have h0 := hb 0
    have h1 := hb 1
    have h2 := hb 2
    unfold corner
    simp only [Matrix.cons_val_zero, Matrix.cons_val_one, Matrix.cons_val]
    refine ⟨?_, ?_, ?_⟩ <;> split <;> constructor <;> linarith
  have hmem : ∀ k < 8, toGlobalVec base (corner r k) ∈ quadPos r base := by
    intro k hk
    unfold quadPos
    exact List.mem_map.2 ⟨k, List.mem_range.2 hk, rfl⟩
  constructor
  · intro v hv i
    obtain ⟨w, t, hw⟩ := global_coord base i
    obtain ⟨⟨-, h1⟩, ⟨-, h2⟩, -⟩ := growBox_fold (quadPos r base)
      (toGlobalVec base (corner r 0), toGlobalVec base (corner r 0)) i
    constructor
    · obtain ⟨k, hk, hle⟩ := affine_min r w v hv
      refine (h1 _ (hmem k hk)).trans ?_
      rw [hw, hw]; linarith
    · obtain ⟨k, hk, hle⟩ := affine_min r (fun j => -(w j)) v hv
      refine le_trans ?_ (h2 _ (hmem k hk))
      rw [hw, hw]; linarith
  · intro i
    obtain ⟨-, -, h1, h2⟩ := growBox_fold (quadPos r base)
      (toGlobalVec base (corner r 0), toGlobalVec base (corner r 0)) i
    have hq : ∀ q ∈ quadPos r base, ∃ k, q = toGlobalVec base (corner r k) := by
      intro q hq
      unfold quadPos at hq
      obtain ⟨k, -, rfl⟩ := List.mem_map.1 hq
      exact ⟨k, rfl⟩
    constructor
    · rcases h1 with h1 | ⟨q, hq', h1⟩
      · exact ⟨corner r 0, hcorner 0, h1.symm⟩
      · obtain ⟨k, rfl⟩ := hq q hq'
        exact ⟨corner r k, hcorner k, h1.symm⟩
    · rcases h2 with h2 | ⟨q, hq', h2⟩
      · exact ⟨corner r 0, hcorner 0, h2.symm⟩
      · obtain ⟨k, rfl⟩ := hq q hq'
        exact ⟨corner r k, hcorner k, h2.symm⟩

/-! ## Cuts -/

/-- **C63**, local and global poses are converted into each other without loss. -/
theorem C63_local_global (base : Option Pose3) (p : Pose3) :
    toLocal base (toGlobal base p) = p ∧ toGlobal base (toLocal base p) = p := by
  cases base with
  | none => exact ⟨rfl, rfl⟩
  | some b => exact ⟨inv_mul_cancel_left b p, mul_inv_cancel_left b p⟩

/-- **C63**, cuts: `createCut` throws exactly for a non-positive cell size; the cells are squares of the
given size side by side from the lower bounds on; they lie within the extents and leave less than one cell
at the upper end uncovered; every entry is the one of the pose in the middle of its cell (or the sum over
the orientations there). -/
theorem C63_cut (c : Coords) (base : Option Pose3) (r : Rep) (hb : ∀ i, r.lo i ≤ r.hi i) (ref : Pose3)
    (size : ℝ) (sum : Bool) :
    (createCut c base r ref size sum = none ↔ size ≤ 0) ∧
    ∀ cut, createCut c base r ref size sum = some cut →
      (cut.loX = (getWorkspaceExtends r base).1 0 ∧ cut.hiX = (getWorkspaceExtends r base).2 0 ∧
       cut.loY = (getWorkspaceExtends r base).1 1 ∧ cut.hiY = (getWorkspaceExtends r base).2 1) ∧
      (cut.nX * size ≤ cut.hiX - cut.loX ∧ cut.hiX - cut.loX < (cut.nX + 1) * size) ∧
      (cut.nY * size ≤ cut.hiY - cut.loY ∧ cut.hiY - cut.loY < (cut.nY + 1) * size) ∧
      ∀ a b, a < cut.nX → b < cut.nY → ∃ p : Pose3, p.rot = ref.rot ∧ p.pos 2 = ref.pos 2 ∧
        p.pos 0 = cut.loX + (a + 1 / 2) * size ∧ p.pos 1 = cut.loY + (b + 1 / 2) * size ∧
        (cut.loX ≤ p.pos 0 ∧ p.pos 0 ≤ cut.hiX) ∧ (cut.loY ≤ p.pos 1 ∧ p.pos 1 ≤ cut.hiY) ∧
        cut.entries a b = if sum = true then
            match getVoxelFromPose r (local6 c base p) with
            | none => some 0
            | some v => sumAngles r v.a v.b v.c
          else getEntry r (local6 c base p) := by
  have hext : ∀ i, (getWorkspaceExtends r base).1 i ≤ (getWorkspaceExtends r base).2 i := by
    intro i
    obtain ⟨h1, h2⟩ := (C63_extents r base hb).1 ![r.lo 0, r.lo 1, r.lo 2]
      ⟨⟨le_refl _, hb 0⟩, ⟨le_refl _, hb 1⟩, ⟨le_refl _, hb 2⟩⟩ i
    exact h1.trans h2
  have hcount : ∀ d : ℝ, 0 ≤ d → 0 < size → ((toInt (d / size)).toNat : ℝ) * size ≤ d ∧
      d < ((toInt (d / size)).toNat + 1) * size := by
    intro d hd hs
    have hq : 0 ≤ d / size := div_nonneg hd hs.le
    have e : ((toInt (d / size)).toNat : ℝ) = (⌊d / size⌋ : ℝ) := by
      unfold toInt; rw [if_pos hq]
      have : ((⌊d / size⌋.toNat : ℤ) : ℝ) = (⌊d / size⌋ : ℝ) := by
        rw [Int.toNat_of_nonneg (Int.floor_nonneg.2 hq)]
      exact_mod_cast this
    rw [e]
    have f1 := Int.floor_le (d / size)
    have f2 := Int.lt_floor_add_one (d / size)
    rw [le_div_iff₀ hs] at f1
    rw [div_lt_iff₀ hs] at f2
    exact ⟨f1, f2⟩
  unfold createCut
  constructor
  · simp only
    split
    · rename_i h; simp [h]
    · rename_i h; simp [h]
  · intro cut hcut
    simp only at hcut
    split at hcut
    · exact absurd hcut (by simp)
    rename_i hs
    have hs := not_le.1 hs
    have := Option.some.inj hcut
    subst this
    obtain ⟨x1, x2⟩ := hcount _ (sub_nonneg.2 (hext 0)) hs
    obtain ⟨y1, y2⟩ := hcount _ (sub_nonneg.2 (hext 1)) hs
    refine ⟨⟨rfl, rfl, rfl, rfl⟩, ⟨x1, x2⟩, ⟨y1, y2⟩, fun a b ha hb' => ?_⟩
    simp only at ha hb' ⊢
    have ha' : (a : ℝ) + 1 ≤ (toInt (((getWorkspaceExtends r base).2 0 - (getWorkspaceExtends r base).1 0) / size)).toNat := by
      exact_mod_cast ha
    have hb'' : (b : ℝ) + 1 ≤ (toInt (((getWorkspaceExtends r base).2 1 - (getWorkspaceExtends r base).1 1) / size)).toNat := by
      exact_mod_cast hb'
    have e0 : (cellPose ref (getWorkspaceExtends r base) size a b).pos 0 =
        (getWorkspaceExtends r base).1 0 + (a + 1 / 2) * size := by
      unfold cellPose; simp only [Matrix.cons_val_zero]; ring
    have e1 : (cellPose ref (getWorkspaceExtends r base) size a b).pos 1 =
        (getWorkspaceExtends r base).1 1 + (b + 1 / 2) * size := by
      unfold cellPose; simp only [Matrix.cons_val_one, Matrix.cons_val_zero]; ring
    have na : (0 : ℝ) ≤ a := Nat.cast_nonneg _
    have nb : (0 : ℝ) ≤ b := Nat.cast_nonneg _
    refine ⟨cellPose ref (getWorkspaceExtends r base) size a b, rfl, rfl, e0, e1, ⟨?_, ?_⟩, ⟨?_, ?_⟩, rfl⟩
    · rw [e0]; nlinarith
    · rw [e0]; nlinarith
    · rw [e1]; nlinarith
    · rw [e1]; nlinarith

/-- **C63**, cuts at a height: throws exactly for a non-positive cell size or a fraction outside [0, 1];
otherwise the cut is made at that fraction of the height of the extents, in the orientation of the base
node. -/
theorem C63_cut_height (c : Coords) (base : Option Pose3) (r : Rep) (hb : ∀ i, r.lo i ≤ r.hi i)
    (height size : ℝ) (sum : Bool) :
    (createCutHeight c base r height size sum = none ↔ size ≤ 0 ∨ height < 0 ∨ 1 < height) ∧
    ∀ cut, createCutHeight c base r height size sum = some cut →
      cut.reference.pos 2 = (1 - height) * (getWorkspaceExtends r base).1 2 +
        height * (getWorkspaceExtends r base).2 2 ∧
      (getWorkspaceExtends r base).1 2 ≤ cut.reference.pos 2 ∧
      cut.reference.pos 2 ≤ (getWorkspaceExtends r base).2 2 ∧
      cut.reference.rot = (toGlobal base 1).rot ∧
      createCut c base r cut.reference size sum = some cut := by
  have hext : (getWorkspaceExtends r base).1 2 ≤ (getWorkspaceExtends r base).2 2 := by
    obtain ⟨h1, h2⟩ := (C63_extents r base hb).1 ![r.lo 0, r.lo 1, r.lo 2]
      ⟨⟨le_refl _, hb 0⟩, ⟨le_refl _, hb 1⟩, ⟨le_refl _, hb 2⟩⟩ 2
    exact h1.trans h2
  have hne : ¬ size ≤ 0 → ∀ ref, ∃ cut, createCut c base r ref size sum = some cut ∧ cut.reference = ref := by
    intro hs ref
    unfold createCut
    simp only
    rw [if_neg hs]
    exact ⟨_, rfl, rfl⟩
  unfold createCutHeight
  constructor
  · by_cases hs : size ≤ 0
    · rw [if_pos hs]; simp [hs]
    · rw [if_neg hs]
      by_cases hh : height < 0 ∨ height > 1
      · rw [if_pos hh]
        constructor
        · intro _; right; exact hh
        · intro _; rfl
      · rw [if_neg hh]
        obtain ⟨cut, e, -⟩ := hne hs
          ⟨(toGlobal base 1).rot, ![(toGlobal base 1).pos 0, (toGlobal base 1).pos 1,
            (getWorkspaceExtends r base).1 2 +
              height * ((getWorkspaceExtends r base).2 2 - (getWorkspaceExtends r base).1 2)]⟩
        simp only
        rw [e]
        constructor
        · intro h; exact absurd h (by simp)
        · rintro (h | h | h)
          · exact absurd h hs
          · exact absurd (Or.inl h) hh
          · exact absurd (Or.inr h) hh
  · intro cut hcut
    split at hcut
    · exact absurd hcut (by simp)
    rename_i hs
    split at hcut
    · exact absurd hcut (by simp)
    rename_i hh
    push Not at hh
    simp only at hcut
    obtain ⟨cut', e, hr⟩ := hne hs
      ⟨(toGlobal base 1).rot, ![(toGlobal base 1).pos 0, (toGlobal base 1).pos 1,
        (getWorkspaceExtends r base).1 2 +
          height * ((getWorkspaceExtends r base).2 2 - (getWorkspaceExtends r base).1 2)]⟩
    rw [e] at hcut
    have := Option.some.inj hcut
    subst this
    have hz : cut'.reference.pos 2 = (getWorkspaceExtends r base).1 2 +
          height * ((getWorkspaceExtends r base).2 2 - (getWorkspaceExtends r base).1 2) := by
      rw [hr]; simp only [Matrix.cons_val]
    refine ⟨by rw [hz]; ring, ?_, ?_, by rw [hr], by rw [hr]; exact e⟩
    · rw [hz]; nlinarith [hh.1, hh.2]
    · rw [hz]; nlinarith [hh.1, hh.2]

/-- **C63**, transformations of a cut: exactly the cells with a positive entry are listed, with their
entry. -/
theorem C63_transformations (cut : Cut) (node : Option Pose3) (e : Nat) (p : Pose3) :
    (e, p) ∈ createCutTransformations cut node ↔
      0 < e ∧ ∃ x y, x < cut.nX ∧ y < cut.nY ∧ cut.entries x y = some e ∧
        toGlobal node p = cutPose cut x y := by
  unfold createCutTransformations
  simp only [List.mem_flatMap, List.mem_range, List.mem_filterMap]
  have hnode : ∀ q : Pose3, (match node with | none => q | some n => n⁻¹ * q) = p ↔ toGlobal node p = q := by
    intro q
    cases node with
    | none => exact eq_comm
    | some n =>
      unfold toGlobal
      simp only
      constructor
      · rintro rfl; exact mul_inv_cancel_left n q
      · rintro rfl; exact inv_mul_cancel_left n p
  constructor
  · rintro ⟨x, hx, y, hy, h⟩
    split at h
    · exact absurd h (by simp)
    · rename_i v hv
      split at h
      · rename_i hv0
        have h' := Option.some.inj h
        have h1 := congrArg Prod.fst h'
        have h2 := congrArg Prod.snd h'
        simp only at h1 h2
        subst h1
        exact ⟨hv0, x, y, hx, hy, hv, (hnode _).1 h2⟩
      · exact absurd h (by simp)
  · rintro ⟨he, x, y, hx, hy, hv, hp⟩
    refine ⟨x, hx, y, hy, ?_⟩
    rw [hv]
    simp only [if_pos he]
    exact congrArg (fun q => some (e, q)) ((hnode _).2 hp)

/-- The poses listed for a cut are not the ones at which it was evaluated: they are placed as if the cells
filled the extents. They agree for a cell if and only if the extents are multiples of the cell size. -/
theorem C63_transformations_misplaced (c : Coords) (base : Option Pose3) (r : Rep) (ref : Pose3)
    (size : ℝ) (sum : Bool) (cut : Cut) (h : createCut c base r ref size sum = some cut) (a b : Nat)
    (ha : a < cut.nX) (hb : b < cut.nY) :
    cutPose cut a b = cellPose ref (getWorkspaceExtends r base) size a b ↔
      cut.hiX - cut.loX = cut.nX * size ∧ cut.hiY - cut.loY = cut.nY * size := by
  unfold createCut at h
  simp only at h
  split at h
  · exact absurd h (by simp)
  have := Option.some.inj h
  subst this
  simp only at ha hb ⊢
  generalize (toInt (((getWorkspaceExtends r base).2 0 - (getWorkspaceExtends r base).1 0) / size)).toNat = nX at ha
  generalize (toInt (((getWorkspaceExtends r base).2 1 - (getWorkspaceExtends r base).1 1) / size)).toNat = nY at hb
  have hX : (0 : ℝ) < nX := by exact_mod_cast (Nat.zero_le a).trans_lt ha
  have hY : (0 : ℝ) < nY := by exact_mod_cast (Nat.zero_le b).trans_lt hb
  have na : (0 : ℝ) ≤ a := Nat.cast_nonneg _
  have nb : (0 : ℝ) ≤ b := Nat.cast_nonneg _
  unfold cutPose cellPose
  simp only
  generalize (getWorkspaceExtends r base).2 0 = hiX
  generalize (getWorkspaceExtends r base).1 0 = loX
  generalize (getWorkspaceExtends r base).2 1 = hiY
  generalize (getWorkspaceExtends r base).1 1 = loY
  constructor
  · intro he
    have hp := congrArg Pose.pos he
    have h0 := congrFun hp 0
    have h1 := congrFun hp 1
    simp only [Matrix.cons_val_zero, Matrix.cons_val_one] at h0 h1
    constructor
    · have : ((a : ℝ) + 1 / 2) * ((hiX - loX) / nX - size) = 0 := by linarith
      rcases mul_eq_zero.1 this with h | h
      · linarith
      · rw [sub_eq_zero, div_eq_iff hX.ne'] at h; linarith
    · have : ((b : ℝ) + 1 / 2) * ((hiY - loY) / nY - size) = 0 := by linarith
      rcases mul_eq_zero.1 this with h | h
      · linarith
      · rw [sub_eq_zero, div_eq_iff hY.ne'] at h; linarith
  · rintro ⟨h0, h1⟩
    have e0 : (hiX - loX) / nX = size := by rw [h0]; field_simp
    have e1 : (hiY - loY) / nY = size := by rw [h1]; field_simp
    rw [e0, e1]

/-! ## Non-vacuity -/

/-- A cut through the small workspace of `C61`: five units wide, cells of two units, so two cells per
direction and one unit left over; the positions are misplaced. -/
example : ∃ r, initialize' true 2 2 smallLo smallHi true = some r ∧ (∀ i, r.lo i ≤ r.hi i) ∧
    (getWorkspaceExtends r none).1 0 = 0 ∧ (getWorkspaceExtends r none).2 0 = 5 ∧
    ∀ c, ∃ cut, createCut c none r 1 2 false = some cut ∧ cut.nX = 2 ∧ 0 < cut.nY ∧
      cut.hiX - cut.loX ≠ cut.nX * 2 := by
  obtain ⟨r, h, hn⟩ := small_ok
  obtain ⟨-, -, ok, e1, e2, -⟩ := initialize_eq h
  have hb : ∀ i, r.lo i ≤ r.hi i := fun i => (ok.bounds i).le
  have hl : ∀ i : Fin 3, (getWorkspaceExtends r none).1 i = 0 ∧ (getWorkspaceExtends r none).2 i = 5 := by
    intro i
    obtain ⟨h1, h2⟩ := C63_extents r none hb
    obtain ⟨⟨v, hv, ev⟩, ⟨w, hw, ew⟩⟩ := h2 i
    have z0 := (h1 ![0, 0, 0] (by rw [e1, e2]; simp [smallLo, smallHi])) i
    have z5 := (h1 ![5, 5, 5] (by rw [e1, e2]; simp [smallLo, smallHi])) i
    rw [toGlobalVec_none] at z0 z5 ev ew
    rw [e1, e2] at hv hw
    simp only [smallLo, smallHi] at hv hw
    obtain ⟨⟨a0, b0⟩, ⟨a1, b1⟩, a2, b2⟩ := hv
    obtain ⟨⟨c0, d0⟩, ⟨c1, d1⟩, c2, d2⟩ := hw
    have p0 : ∀ i : Fin 3, (![0, 0, 0] : V3) i = 0 := by intro i; fin_cases i <;> rfl
    have p5 : ∀ i : Fin 3, (![5, 5, 5] : V3) i = 5 := by intro i; fin_cases i <;> rfl
    have q0 : 0 ≤ v i := by
      fin_cases i
      · exact a0
      · exact a1
      · exact a2
    have q5 : w i ≤ 5 := by
      fin_cases i
      · exact d0
      · exact d1
      · exact d2
    rw [p0] at z0
    rw [p5] at z5
    constructor <;> linarith
  refine ⟨r, h, hb, (hl 0).1, (hl 0).2, fun c => ?_⟩
  have hfl : (toInt ((5 - 0) / 2 : ℝ)).toNat = 2 := by
    have : ⌊((5 - 0) / 2 : ℝ)⌋ = 2 := by rw [Int.floor_eq_iff]; norm_num
    unfold toInt; rw [if_pos (by norm_num), this]; rfl
  unfold createCut
  simp only
  rw [if_neg (by norm_num)]
  refine ⟨_, rfl, ?_, ?_, ?_⟩
  · simp only [(hl 0).1, (hl 0).2]; exact hfl
  · simp only [(hl 1).1, (hl 1).2]; rw [hfl]; decide
  · simp only [(hl 0).1, (hl 0).2]; rw [hfl]; norm_num

end Simox.Wsr
