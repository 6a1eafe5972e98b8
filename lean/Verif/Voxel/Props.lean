/-
C44: the sparse voxel tree behaves like a map from the voxels of a regular grid to entries.
-/
import Mathlib.Tactic.FieldSimp
import Verif.Voxel.Lemmas3

namespace Simox.Vox

variable {N : Nat} {T : Type}

/-- The edge length of the smallest voxels (`getRealDiscretization`). -/
def width (P : Params N) (i : Fin N) : ℚ := ext P (P.maxLevels - 1) i

theorem width_eq (P : Params N) : width P = fun i => P.size i / 2 ^ (P.maxLevels - 1) := by
  funext i; exact ext_eq P _ i

/-- Parameters of a constructed tree. -/
theorem mkParams_ok {mn mx d : Fin N → ℚ} {P : Params N} (h : mkParams mn mx d = some P) :
    P.Ok ∧ P.min = mn ∧ (∀ i, P.size i = mx i - mn i) := by
  unfold mkParams at h
  split at h
  · simp at h
  rename_i h1
  split at h
  · simp at h
  cases h
  refine ⟨⟨fun i => ?_, by simp⟩, rfl, fun i => rfl⟩
  simp only
  by_contra hn
  exact h1 ⟨i, Or.inl (by linarith)⟩

open Classical in
/-- **Map semantics.**  Over any history of `setEntry` calls on a newly constructed tree of at least
two levels, `getEntry` at a position returns the value written last to the voxel containing the
position; outside the box it returns nothing.  `hasEntry` agrees. -/
theorem C44_get_after_sets {mn mx d : Fin N → ℚ} {P : Params N} (h : mkParams mn mx d = some P)
    (ws : List ((Fin N → ℚ) × T)) :
    ∃ t, runSets P ws (newTree P) = some t ∧
      (∀ q, InBox mn (fun i => mx i - mn i) q →
        getEntry P t.root q =
          lastWrite (fun p => InBox mn (fun i => mx i - mn i) p ∧ SameVoxel mn (width P) p q) ws) ∧
      (∀ q, InBox mn (fun i => mx i - mn i) q →
        (hasEntry P t.root q = true ↔ ∃ x, getEntry P t.root q = some x)) ∧
      (P.maxLevels ≥ 2 → ∀ q, ¬ InBox mn (fun i => mx i - mn i) q →
        getEntry P t.root q = none) ∧
      ∀ q, ¬ InBox mn (fun i => mx i - mn i) q → hasEntry P t.root q = false := by
  obtain ⟨hP, hmin, hsize⟩ := mkParams_ok h
  have hsize' : (fun i => mx i - mn i) = P.size := by funext i; exact (hsize i).symm
  obtain ⟨t, h1, h2, _, _, _, h6⟩ := run_inv P hP ws (newTree P) (inv_new P hP)
  rw [hsize', ← hmin, width_eq]
  have hcov : ∀ q, ¬ InBox P.min P.size q → ∀ i : Info N, i.level = 0 → i.pos = posOf P 0 (fun _ => 0) →
      covers P i q = false := by
    intro q hq i e1 e2
    rw [← Bool.not_eq_true]
    intro hc
    apply hq
    unfold covers at hc
    rw [decide_eq_true_iff] at hc
    intro j
    have := hc j
    rw [e1, e2, posOf_zero] at this
    simp only [ext] at this
    push Not at this
    exact this
  refine ⟨t, h1, ?_, ?_, ?_, ?_⟩
  · intro q hq
    rw [getEntry_eq P hP q hq t.root 0 (by rw [cv_zero]; exact h2.wf), h6 q hq]
    have hc : content (P.maxLevels - 1) (newTree P : Tree N T).root 0 (cv P (P.maxLevels - 1) q) = none :=
      newElem_content P 1 0 P.min _ _
    rw [hc]
    split <;> simp_all
  · intro q hq
    rw [hasEntry_eq P hP q hq t.root 0 (by rw [cv_zero]; exact h2.wf), Option.isSome_iff_exists]
  · intro h2l q hq
    have hw := h2.wf
    cases hr : t.root with
    | null => rfl
    | leaf i en =>
      rw [hr] at hw
      have := hw.2.2
      omega
    | node i c =>
      rw [hr] at hw
      unfold getEntry
      rw [hcov q hq i hw.1 hw.2.1]
      rfl
  · intro q hq
    have hw := h2.wf
    cases hr : t.root with
    | null => rfl
    | leaf i en =>
      rw [hr] at hw
      unfold hasEntry
      rw [hcov q hq i hw.1 hw.2.1]
      rfl
    | node i c =>
      rw [hr] at hw
      unfold hasEntry
      rw [hcov q hq i hw.1 hw.2.1]
      rfl

/-- **Return value.**  In every reachable tree `setEntry` succeeds exactly for positions inside the
box (boundary included), and otherwise changes nothing. -/
theorem C44_set_result {mn mx d : Fin N → ℚ} {P : Params N} (h : mkParams mn mx d = some P)
    (ws : List ((Fin N → ℚ) × T)) (t : Tree N T) (ht : runSets P ws (newTree P) = some t)
    (p : Fin N → ℚ) (x : T) :
    ∃ t' ok, t.set P p x = some (t', ok) ∧ (ok = true ↔ InBox mn (fun i => mx i - mn i) p) ∧
      (ok = false → t' = t) := by
  obtain ⟨hP, hmin, hsize⟩ := mkParams_ok h
  have hsize' : (fun i => mx i - mn i) = P.size := by funext i; exact (hsize i).symm
  obtain ⟨t0, h1, h2, _⟩ := run_inv P hP ws (newTree P) (inv_new P hP)
  rw [h1] at ht
  cases ht
  obtain ⟨t', ok, g1, _, g3, g4⟩ := set_inv P hP t h2 p x
  rw [hsize', ← hmin]
  refine ⟨t', ok, g1, ?_, ?_⟩
  · by_cases hp : InBox P.min P.size p
    · simp [hp, (g3 hp).1]
    · simp [hp, (g4 hp).1]
  · intro hok
    by_cases hp : InBox P.min P.size p
    · rw [(g3 hp).1] at hok; simp at hok
    · exact (g4 hp).2

/-- **Leaves.**  `getLeafElement` returns a leaf exactly where there is an entry; that entry is the
leaf's, and the centre of the leaf's voxel is at most half a voxel away in each dimension. -/
theorem C44_leaf {mn mx d : Fin N → ℚ} {P : Params N} (h : mkParams mn mx d = some P)
    (h2l : P.maxLevels ≥ 2)
    (ws : List ((Fin N → ℚ) × T)) (t : Tree N T) (ht : runSets P ws (newTree P) = some t)
    (q : Fin N → ℚ) (hq : InBox mn (fun i => mx i - mn i) q) :
    (getLeaf P t.root q = none ↔ getEntry P t.root q = none) ∧
    ∀ i en, getLeaf P t.root q = some (i, en) →
      getEntry P t.root q = en ∧ ∀ j, |voxelCenter P i j - q j| ≤ width P j / 2 := by
  obtain ⟨hP, hmin, hsize⟩ := mkParams_ok h
  have hsize' : (fun i => mx i - mn i) = P.size := by funext i; exact (hsize i).symm
  rw [hsize', ← hmin] at hq
  obtain ⟨t0, h1, inv, _⟩ := run_inv P hP ws (newTree P) (inv_new P hP)
  rw [h1] at ht
  cases ht
  obtain ⟨g1, g2⟩ := getLeaf_spec P hP q hq t.root 0 (by rw [cv_zero]; exact inv.wf)
  refine ⟨⟨g2, ?_⟩, ?_⟩
  · intro hn
    rcases hg : getLeaf P t.root q with _ | ⟨i, en⟩
    · rfl
    · exfalso
      have hen := (g1 i en hg).2.2
      rw [hn] at hen
      -- every leaf has an entry, since the root is not a leaf
      have hent : ∀ e : Elem N T, Full e → ∀ i en, getLeaf P e q = some (i, en) → en ≠ none := by
        intro e
        induction e with
        | null => intro _ i en h; simp [getLeaf] at h
        | leaf j en' =>
          intro hf i en h
          simp only [getLeaf, Option.some.injEq, Prod.mk.injEq] at h
          rw [← h.2]; exact hf
        | node j c ih =>
          intro hf i en h
          unfold getLeaf at h
          split at h
          · exact ih _ (hf.1 _) i en h
          · simp at h
      have hwf := inv.wf
      have hfb := inv.full
      cases hr : t.root with
      | null => rw [hr] at hg; simp [getLeaf] at hg
      | leaf i' en' =>
        rw [hr] at hwf
        have := hwf.2.2
        omega
      | node i' c =>
        rw [hr] at hfb hg
        unfold getLeaf at hg
        split at hg
        · exact hent _ (hfb _) i en hg hen.symm
        · simp at hg
  · intro i en hg
    obtain ⟨a, b, c⟩ := g1 i en hg
    refine ⟨c, fun j => ?_⟩
    have hb := cvox_bounds (P.min j) (P.size j) (hP.1 j) (q j) (hq j).1 (hq j).2 i.level
    have hl : P.maxLevels - 1 = i.level := by omega
    unfold voxelCenter width
    rw [hl, ext_eq, b]
    simp only [posOf, cv]
    rw [abs_le]
    constructor <;> linarith [hb.1, hb.2]

/-- **Real discretization.**  The real voxels are less than one and a half times as long as
requested. -/
theorem C44_discretization {mn mx d : Fin N → ℚ} {P : Params N} (h : mkParams mn mx d = some P)
    (i : Fin N) : 0 < width P i ∧ width P i < 3 / 2 * d i := by
  have hok := mkParams_ok h
  unfold mkParams at h
  split at h
  · simp at h
  rename_i h1
  split at h
  · simp at h
  rename_i h2
  cases h
  obtain ⟨⟨hs', _⟩, _, _⟩ := hok
  have hs : 0 < mx i - mn i := hs' i
  have hd : 0 < d i := by
    by_contra hn
    exact h1 ⟨i, Or.inr (by linarith)⟩
  rw [width_eq]
  simp only [Nat.add_sub_cancel]
  set S := maxSteps (fun i => mx i - mn i) d with hS
  have hSpos : (0 : ℚ) < S := by exact_mod_cast Nat.pos_of_ne_zero h2
  have hclog : (S : ℚ) ≤ 2 ^ Nat.clog 2 S := by
    exact_mod_cast Nat.le_pow_clog (by omega) S
  have hle : (mx i - mn i) / 2 ^ Nat.clog 2 S ≤ (mx i - mn i) / S :=
    div_le_div_of_nonneg_left hs.le hSpos hclog
  refine ⟨by positivity, lt_of_le_of_lt hle ?_⟩
  have hst := steps_le_max (fun i => mx i - mn i) d i
  rw [← hS] at hst
  have hfl := Int.lt_floor_add_one ((mx i - mn i) / d i + 1 / 2)
  have hfl0 : 0 ≤ ⌊(mx i - mn i) / d i + 1 / 2⌋ := Int.floor_nonneg.2 (by positivity)
  have hcast : ((steps (mx i - mn i) (d i) : Nat) : ℚ) = (⌊(mx i - mn i) / d i + 1 / 2⌋ : ℚ) := by
    unfold steps
    have : ((⌊(mx i - mn i) / d i + 1 / 2⌋.toNat : ℤ)) = ⌊(mx i - mn i) / d i + 1 / 2⌋ :=
      Int.toNat_of_nonneg hfl0
    exact_mod_cast this
  rw [← hcast] at hfl
  have hSge : ((steps (mx i - mn i) (d i) : Nat) : ℚ) ≤ S := by exact_mod_cast hst
  have hS1 : (1 : ℚ) ≤ S := by exact_mod_cast Nat.one_le_iff_ne_zero.2 h2
  have hlt : (mx i - mn i) / d i < S + 1 / 2 := by linarith
  rw [div_lt_iff₀ hd] at hlt
  rw [div_lt_iff₀ hSpos]
  have : (S + 1 / 2) * d i ≤ 3 / 2 * d i * S := by nlinarith
  linarith

/-- **Partial positions.**  For a position of which the first `dims` coordinates are given (and lie in
the box), `getAllLeafs` returns exactly the leaves of the positions that lie in the same voxels in
these dimensions, each once. -/
theorem C44_all_leafs {mn mx d : Fin N → ℚ} {P : Params N} (h : mkParams mn mx d = some P)
    (ws : List ((Fin N → ℚ) × T)) (t : Tree N T) (ht : runSets P ws (newTree P) = some t)
    (dims : Nat) (hd : dims ≤ N) (p : Fin N → ℚ)
    (hp : ∀ j, j.val < dims → mn j ≤ p j ∧ p j ≤ mx j) :
    (∀ x, x ∈ allLeafs P dims p t.root ↔ ∃ q, InBox mn (fun i => mx i - mn i) q ∧
      (∀ j, j.val < dims → voxelNr (mn j) (width P j) (q j) = voxelNr (mn j) (width P j) (p j)) ∧
      getLeaf P t.root q = some x) ∧
    ((allLeafs P dims p t.root).map (fun x => x.1.id)).Nodup := by
  obtain ⟨hP, hmin, hsize⟩ := mkParams_ok h
  have hsize' : (fun i => mx i - mn i) = P.size := by funext i; exact (hsize i).symm
  obtain ⟨t0, h1, inv, _⟩ := run_inv P hP ws (newTree P) (inv_new P hP)
  rw [h1] at ht
  cases ht
  have hin : ∀ j, j.val < dims → ∀ q : Fin N → ℚ, InBox P.min P.size q →
      (cv P (P.maxLevels - 1) q j = cv P (P.maxLevels - 1) p j ↔
        voxelNr (mn j) (width P j) (q j) = voxelNr (mn j) (width P j) (p j)) := by
    intro j hj q hq
    unfold cv
    have hpj : p j ≤ P.min j + P.size j := by rw [hmin, hsize]; linarith [(hp j hj).2]
    rw [cvox_inside _ _ (hP.1 j) _ hpj, cvox_inside _ _ (hP.1 j) _ (hq j).2, width_eq, hmin]
  constructor
  · intro x
    rw [mem_allLeafs P hP dims hd p x t.root 0 (fun _ => 0) inv.wf
      (fun j _ => by rw [cv_zero]) hP.2]
    rw [hsize', ← hmin]
    constructor
    · rintro ⟨v, v1, v2, v3⟩
      have hv : ∀ i, v i < 2 ^ (P.maxLevels - 1) := by
        intro i
        have := v1 i
        rw [Nat.sub_zero] at this
        by_contra hge
        have h1 : 1 ≤ v i / 2 ^ (P.maxLevels - 1) :=
          (Nat.one_le_div_iff (Nat.pos_of_ne_zero (by positivity))).2 (by omega)
        omega
      obtain ⟨q, hq, hqv⟩ := cv_center P hP _ v hv
      refine ⟨q, hq, ?_, ?_⟩
      · intro j hj
        rw [hmin]
        rw [← hin j hj q hq, hqv]
        exact v2 j hj
      · rw [getLeaf_eq P hP q hq t.root 0 (by rw [cv_zero]; exact inv.wf), hqv]
        exact v3
    · rintro ⟨q, hq, q2, q3⟩
      refine ⟨cv P (P.maxLevels - 1) q, ?_, ?_, ?_⟩
      · intro j
        rw [Nat.sub_zero]
        exact Nat.div_eq_of_lt (cv_lt P _ q j)
      · intro j hj
        rw [hin j hj q hq, ← hmin]
        exact q2 j hj
      · rw [← getLeaf_eq P hP q hq t.root 0 (by rw [cv_zero]; exact inv.wf)]
        exact q3
  · apply allLeafs_nodup P dims p t.root ⟨_, _, inv.wf⟩
    exact inv.ids.nodup_iff.2 (List.nodup_range')

/-- **Maximum.**  `getMaxEntry` returns a leaf with a maximal entry among those of `getAllLeafs`, and
no leaf only if there are none. -/
theorem C44_max_entry [LinearOrder T] {mn mx d : Fin N → ℚ} {P : Params N}
    (h : mkParams mn mx d = some P) (ws : List ((Fin N → ℚ) × T)) (t : Tree N T)
    (ht : runSets P ws (newTree P) = some t) (hw : ∃ w ∈ ws, InBox mn (fun i => mx i - mn i) w.1)
    (dims : Nat) (p : Fin N → ℚ) :
    (maxLeaf P dims p t.root = none ↔ allLeafs P dims p t.root = []) ∧
    ∀ i en, maxLeaf P dims p t.root = some (i, en) → (i, en) ∈ allLeafs P dims p t.root ∧
      ∃ x, en = some x ∧ ∀ j y, (j, some y) ∈ allLeafs P dims p t.root → y ≤ x := by
  obtain ⟨hP, hmin, hsize⟩ := mkParams_ok h
  have hsize' : (fun i => mx i - mn i) = P.size := by funext i; exact (hsize i).symm
  obtain ⟨t0, h1, inv, _, hf, _⟩ := run_inv P hP ws (newTree P) (inv_new P hP)
  rw [h1] at ht
  cases ht
  rw [hsize', ← hmin] at hw
  exact maxLeaf_spec P dims p t.root (hf (Or.inl hw))

/-- **Element count.**  The number of elements equals the last id given out (`getNrElements`), and all
leaves have different ids. -/
theorem C44_count {mn mx d : Fin N → ℚ} {P : Params N} (h : mkParams mn mx d = some P)
    (ws : List ((Fin N → ℚ) × T)) (t : Tree N T) (ht : runSets P ws (newTree P) = some t) :
    countNodes t.root = t.currentID ∧ (idsOf t.root).Perm (List.range' 1 t.currentID) := by
  obtain ⟨hP, _, _⟩ := mkParams_ok h
  obtain ⟨t0, h1, inv, _⟩ := run_inv P hP ws (newTree P) (inv_new P hP)
  rw [h1] at ht
  cases ht
  refine ⟨?_, inv.ids⟩
  rw [countNodes_eq, inv.ids.length_eq, List.length_range']

theorem fresh_only (P : Params N) (hP : P.Ok) (ws : List ((Fin N → ℚ) × T)) (t : Tree N T)
    (ht : runSets P ws (newTree P) = some t)
    (hw : P.maxLevels ≥ 2 ∨ ∃ w ∈ ws, InBox P.min P.size w.1) : Ent t.root := by
  obtain ⟨t0, h1, inv, _, hf, _⟩ := run_inv P hP ws (newTree P) (inv_new P hP)
  rw [h1] at ht
  cases ht
  rcases hw with hw | hw
  · have hwf := inv.wf
    have hfb := inv.full
    cases hr : t.root with
    | null => trivial
    | leaf i en =>
      rw [hr] at hwf
      have := hwf.2.2
      omega
    | node i c =>
      rw [hr] at hfb
      exact fun k => (hfb k).ent
  · exact (hf (Or.inl hw)).ent

/-- **Saving and loading.**  What is written by `save` is read back by `load` as the same tree: the same
elements with the same ids, positions, levels and entries.  Only a tree of one level into which
nothing was written cannot be saved. -/
theorem C44_save_load {mn mx d : Fin N → ℚ} {P : Params N} (h : mkParams mn mx d = some P)
    (ws : List ((Fin N → ℚ) × T)) (t : Tree N T) (ht : runSets P ws (newTree P) = some t)
    (hw : P.maxLevels ≥ 2 ∨ ∃ w ∈ ws, InBox mn (fun i => mx i - mn i) w.1) :
    ∃ file, save t = some file ∧ load P file = some t := by
  obtain ⟨hP, hmin, hsize⟩ := mkParams_ok h
  have hsize' : (fun i => mx i - mn i) = P.size := by funext i; exact (hsize i).symm
  rw [hsize', ← hmin] at hw
  have hent := fresh_only P hP ws t ht hw
  obtain ⟨t0, h1, inv, _⟩ := run_inv P hP ws (newTree P) (inv_new P hP)
  rw [h1] at ht
  cases ht
  have hrec := records_eq t.root hent
  have hids := recsOf_ids t.root hent
  refine ⟨((recsOf t.root).length, t.currentID, recsOf t.root), by simp [save, hrec], ?_⟩
  have hn : ((recsOf t.root).map Rec.id).Nodup := by
    rw [hids]; exact inv.ids.nodup_iff.2 List.nodup_range'
  have hb := rebuild_eq P (recsOf t.root) hn t.root P.maxLevels 0 (fun _ => 0) inv.ne hent inv.wf
    (fun r hr => hr) (fun id hid => by
      have := inv.ids.mem_iff.1 hid
      rw [List.mem_range'_1] at this
      exact this.1) (by omega)
  rw [inv.root1, posOf_zero] at hb
  have hlen : (recsOf t.root).length = t.currentID := by
    rw [← List.length_map (f := Rec.id), hids, inv.ids.length_eq, List.length_range']
  unfold load
  simp only
  rw [hb, hlen]

/-- The exception in `C44_save_load`. -/
theorem C44_save_empty_fails {mn mx d : Fin N → ℚ} {P : Params N} (h : mkParams mn mx d = some P)
    (h1l : P.maxLevels = 1) : save (newTree P : Tree N T) = none := by
  have _ := h
  simp [save, newTree, newElem, h1l, records]

/-- **Iteration.**  On a tree of at least two levels an `ElementIterator` delivers every leaf exactly
once and then the null pointer for ever. -/
theorem C44_iterator {mn mx d : Fin N → ℚ} {P : Params N} (h : mkParams mn mx d = some P)
    (h2l : P.maxLevels ≥ 2)
    (ws : List ((Fin N → ℚ) × T)) (t : Tree N T) (ht : runSets P ws (newTree P) = some t) :
    ∃ s L, iterInit t.root = some s ∧
      (∀ n, (Nat.iterate iterNext n s).cur = (L : List (Elem N T)).getD n .null) ∧
      (∀ x, x ∈ L ↔ ∃ q i en, InBox mn (fun i => mx i - mn i) q ∧
        getLeaf P t.root q = some (i, en) ∧ x = .leaf i en) ∧
      (L.map Elem.idOr0).Nodup := by
  have hall := fun p => (C44_all_leafs h ws t ht 0 (Nat.zero_le _) p
    (fun j hj => absurd hj (by omega))).1
  obtain ⟨hP, hmin, hsize⟩ := mkParams_ok h
  obtain ⟨t0, h1, inv, _⟩ := run_inv P hP ws (newTree P) (inv_new P hP)
  rw [h1] at ht
  cases ht
  have hmem : ∀ x, x ∈ leavesOf t.root ↔ ∃ q i en, InBox mn (fun i => mx i - mn i) q ∧
        getLeaf P t.root q = some (i, en) ∧ x = .leaf i en := by
    intro x
    rw [mem_leavesOf P mn x t.root ⟨_, _, inv.wf⟩]
    constructor
    · rintro ⟨i, en, hx, hm⟩
      obtain ⟨q, hq, _, hg⟩ := (hall mn (i, en)).1 hm
      exact ⟨q, i, en, hq, hg, hx⟩
    · rintro ⟨q, i, en, hq, hg, hx⟩
      exact ⟨i, en, hx, (hall mn (i, en)).2 ⟨q, hq, fun j hj => absurd hj (by omega), hg⟩⟩
  have hnd : ((leavesOf t.root).map Elem.idOr0).Nodup :=
    (leavesOf_sublist t.root).nodup (inv.ids.nodup_iff.2 List.nodup_range')
  have hwf := inv.wf
  have hfb := inv.full
  rcases hr : t.root with _ | ⟨i, en⟩ | ⟨i, c⟩
  · exact absurd hr inv.ne
  · rw [hr] at hwf
    have := hwf.2.2
    omega
  · rw [hr] at hmem hnd hfb
    rcases nextChild_spec c (2 ^ N) 0 with ⟨n1, n2⟩ | ⟨k, n1, _, n3, n4, n5⟩
    · refine ⟨⟨[.node i c], [], .null⟩, leavesOf (.node i c), by simp [iterInit, n1], ?_, hmem, hnd⟩
      have hnil : leavesOf (.node i c) = [] := by
        unfold leavesOf
        exact flatMap_null c _ (fun j hj => n2 j (by omega) (by have := List.mem_range.1 hj; omega))
      have hstay : ∀ n, Nat.iterate iterNext n (⟨[.node i c], [], .null⟩ : Iter N T) =
          ⟨[.node i c], [], .null⟩ := by
        intro n
        induction n with
        | zero => rfl
        | succ n ih => rw [Function.iterate_succ_apply]; exact ih
      intro n
      rw [hstay, hnil]
      simp
    · obtain ⟨y, ys, g1, g2, g3⟩ := goDown_spec (c k) k [.node i c] [] n4 (hfb k)
      have hst : StackFull (goDown (c k) k [.node i c] []).elems.tail := by
        apply goDown_stack _ _ _ _ n4 (hfb k)
        intro e he
        rw [List.mem_singleton.1 he]
        exact hfb
      refine ⟨goDown (c k) k [.node i c] [], leavesOf (.node i c), by simp [iterInit, n1], ?_,
        hmem, hnd⟩
      intro n
      rw [iter_all _ _ g3 hst n, g2]
      congr 1
      unfold leavesOf
      rw [split_range _ _ (show k < 2 ^ N by omega), List.flatMap_append, List.flatMap_cons,
        flatMap_null c _ (fun j hj => n5 j (by omega) (List.mem_range.1 hj)), g1]
      simp [after]

/-! ### Where the code deviates -/

/-- A box of edge length 1.4 with requested voxel size 1. -/
def exP : Params 1 := ⟨fun _ => 0, fun _ => 14 / 10, 1⟩

theorem exP_made : mkParams (fun _ : Fin 1 => 0) (fun _ => 14 / 10) (fun _ => 1) = some exP := by
  have h1 : ¬ ∃ _ : Fin 1, (14 / 10 : ℚ) - 0 ≤ 0 ∨ (1 : ℚ) ≤ 0 := by
    rintro ⟨_, h | h⟩ <;> norm_num at h
  have h2 : maxSteps (fun _ : Fin 1 => (14 / 10 : ℚ) - 0) (fun _ => 1) = 1 := by
    have : ⌊(14 / 10 - 0 : ℚ) / 1 + 1 / 2⌋ = 1 := by
      rw [Int.floor_eq_iff]; norm_num
    simp only [maxSteps, steps, List.ofFn_succ, List.ofFn_zero, List.foldl_cons, List.foldl_nil]
    rw [this]
    rfl
  unfold mkParams
  rw [if_neg h1, h2]
  simp [exP]

/-- With a single level, `getEntry` at a position outside the box returns an entry although it should
return nothing (the position is never looked at). -/
theorem C44_one_level_outside : ∃ t : Tree 1 Nat,
    runSets exP [(fun _ => 1, 7)] (newTree exP) = some t ∧
    ¬ InBox exP.min exP.size (fun _ => 100) ∧ getEntry exP t.root (fun _ => 100) = some 7 := by
  have hcov : covers exP ⟨1, exP.min, 0⟩ (fun _ => 1) = true := by
    unfold covers
    rw [decide_eq_true_iff]
    intro i
    simp [exP, ext]
    norm_num
  refine ⟨⟨.leaf ⟨1, exP.min, 0⟩ (some 7), 1⟩, ?_, ?_, rfl⟩
  · simp only [runSets, Tree.set, newTree, newElem]
    rw [if_pos (show 0 + 1 ≥ exP.maxLevels by simp [exP])]
    simp only [show exP.maxLevels = 0 + 1 from rfl, setEntry, hcov]
    rfl
  · intro h
    have := (h 0).2
    simp [exP] at this
    norm_num at this

/-- The real voxels can be longer than requested. -/
theorem C44_coarser_than_requested : width exP 0 = 14 / 10 ∧ ¬ width exP 0 ≤ 1 := by
  have : width exP 0 = 14 / 10 := by rw [width_eq]; simp [exP]
  rw [this]
  norm_num

/-- An iterator on a tree of one level accesses a missing array of children. -/
theorem C44_iterator_one_level {mn mx d : Fin N → ℚ} {P : Params N} (h : mkParams mn mx d = some P)
    (h1l : P.maxLevels = 1) : iterInit (newTree P : Tree N T).root = none := by
  have _ := h
  simp [newTree, newElem, h1l, iterInit]

/-- When the requested voxels are more than twice as long as the box in all dimensions, the number of
levels is computed from the logarithm of zero. -/
theorem C44_log_of_zero (mn mx d : Fin N → ℚ) (hd : ∀ i, 0 < d i) (hs : ∀ i, 0 < mx i - mn i)
    (h : ∀ i, d i > 2 * (mx i - mn i)) :
    mkParams mn mx d = none ∧ maxSteps (fun i => mx i - mn i) d = 0 := by
  have h0 : maxSteps (fun i => mx i - mn i) d = 0 := by
    unfold maxSteps
    have hz : ∀ l : List Nat, (∀ s ∈ l, s = 0) →
        l.foldl (fun m s => if s > m then s else m) 0 = 0 := by
      intro l
      induction l with
      | nil => intro _; rfl
      | cons a as ih =>
        intro hl
        rw [List.foldl_cons, hl a (by simp)]
        exact ih (fun s hs => hl s (by simp [hs]))
    apply hz
    intro s hs'
    rw [List.mem_ofFn] at hs'
    obtain ⟨i, rfl⟩ := hs'
    unfold steps
    have : ⌊(mx i - mn i) / d i + 1 / 2⌋ = 0 := by
      rw [Int.floor_eq_iff]
      have h1 : 0 < (mx i - mn i) / d i := div_pos (hs i) (hd i)
      have h2 : (mx i - mn i) / d i < 1 / 2 := by
        rw [div_lt_iff₀ (hd i)]; linarith [h i]
      constructor
      · push_cast; linarith
      · push_cast; linarith
    rw [this]; rfl
  refine ⟨?_, h0⟩
  unfold mkParams
  rw [if_pos h0]
  split <;> rfl

/-! ### The hypotheses are met -/

/-- A square of edge length 4, requested voxel size 1. -/
theorem ex2_made : mkParams (fun _ : Fin 2 => 0) (fun _ => 4) (fun _ => 1) =
    some ⟨fun _ => 0, fun _ => 4 - 0, 3⟩ := by
  have h1 : ¬ ∃ _ : Fin 2, (4 : ℚ) - 0 ≤ 0 ∨ (1 : ℚ) ≤ 0 := by
    rintro ⟨_, h | h⟩ <;> norm_num at h
  have h2 : maxSteps (fun _ : Fin 2 => (4 : ℚ) - 0) (fun _ => 1) = 4 := by
    have : ⌊(4 - 0 : ℚ) / 1 + 1 / 2⌋ = 4 := by
      rw [Int.floor_eq_iff]; norm_num
    simp only [maxSteps, steps, List.ofFn_succ, List.ofFn_zero, List.foldl_cons, List.foldl_nil]
    rw [this]
    rfl
  unfold mkParams
  rw [if_neg h1, h2]
  norm_num
  rfl

/-- Two entries in different voxels, the first overwritten; a write outside is ignored. -/
def ex2_ws : List ((Fin 2 → ℚ) × Nat) :=
  [(fun _ => 1 / 2, 1), (fun _ => 7 / 2, 2), (fun _ => 1, 3), (fun _ => 9, 4)]

example : ∃ w ∈ ex2_ws, InBox (fun _ => 0) (fun _ : Fin 2 => (4 : ℚ) - 0) w.1 :=
  ⟨(fun _ => 1 / 2, 1), by simp [ex2_ws], fun _ => by norm_num⟩

example : ∃ t : Tree 2 Nat, runSets ⟨fun _ => 0, fun _ => 4 - 0, 3⟩ ex2_ws
    (newTree ⟨fun _ => 0, fun _ => 4 - 0, 3⟩) = some t :=
  let ⟨t, h, _⟩ := C44_get_after_sets ex2_made ex2_ws
  ⟨t, h⟩

end Simox.Vox
