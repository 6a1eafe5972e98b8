import Verif.Workspace.Lemmas2

/-!
# Properties C04 – C10: the workspace voxel store

`run (new sizes adjust) ops` executes a history on a freshly constructed array; `none` would mean
undefined behaviour. `Spec.run` executes the same history on a plain map.
-/

namespace Simox.Workspace

open Spec

/-- **C04.** For every grid that fits 32-bit indices and every history of calls with in-range
arguments, no undefined behaviour occurs and every voxel reads exactly what the plain map holds. -/
theorem C04_store_is_a_map (sizes : Vox) (adjust : Bool) (hfit : Fits sizes) (ops : List Op)
    (hadm : ∀ op ∈ ops, Admissible sizes op) :
    ∃ w, run (new sizes adjust) ops = some w ∧
      ∀ v, InRange sizes v → get w v = some ((Spec.run sizes adjust Spec.init ops).val v) := by
  obtain ⟨w, e, r⟩ := run_refines hfit ops (init_refines sizes adjust) hadm
  refine ⟨w, e, fun v hv => ?_⟩
  have hw : w.sizes = sizes := r.sizes
  rw [get_eq (by rw [hw]; exact hfit) (by rw [hw]; exact hv), r.val v hv]

/-- **C04**, read-after-write in any state reached by an admissible history. -/
theorem C04_read_after_write (sizes : Vox) (adjust : Bool) (hfit : Fits sizes) (ops : List Op)
    (hadm : ∀ op ∈ ops, Admissible sizes op) (v : Vox) (x : Nat) (hv : InRange sizes v)
    (_hx : x ≤ 255) :
    ∃ w w', run (new sizes adjust) ops = some w ∧ setDatum w v x = some w' ∧
      get w' v = some x ∧ ∀ u, InRange sizes u → u ≠ v → get w' u = get w u := by
  obtain ⟨w, e, r⟩ := run_refines hfit ops (init_refines sizes adjust) hadm
  have hw : w.sizes = sizes := r.sizes
  subst hw
  obtain ⟨w', e', sm, _, _, hval⟩ := setDatum_spec (x := x) hfit hv
  have hg : ∀ u, InRange w.sizes u → get w' u = some (val w' u) := fun u hu =>
    get_eq (by rw [sm.sizes]; exact hfit) (by rw [sm.sizes]; exact hu)
  refine ⟨w, w', e, e', ?_, fun u hu huv => ?_⟩
  · rw [hg v hv, hval v hv]; simp
  · rw [hg u hu, hval u hu, get_eq hfit hu]; simp [huv]

/-- **C04**, copies: a clone taken after any history reads the same everywhere, reports the same
maximum and fill count, and continues to behave like the original under any further history. -/
theorem C04_clone_equivalent (sizes : Vox) (adjust : Bool) (hfit : Fits sizes) (ops more : List Op)
    (hadm : ∀ op ∈ ops, Admissible sizes op) (hmore : ∀ op ∈ more, Admissible sizes op) :
    ∃ w w1 w2, run (new sizes adjust) ops = some w ∧ run w more = some w1 ∧
      run (clone w) more = some w2 ∧
      (∀ v, InRange sizes v → get (clone w) v = get w v ∧ get w2 v = get w1 v) ∧
      (clone w).maxEntry = w.maxEntry ∧ (clone w).filled = w.filled ∧
      (clone w).minValid = w.minValid := by
  obtain ⟨w, e, r⟩ := run_refines hfit ops (init_refines sizes adjust) hadm
  have hw : w.sizes = sizes := r.sizes
  subst hw
  have hc : ∀ v, InRange w.sizes v → val (clone w) v = val w v := by
    intro v hv; unfold val clone; simp [visited_pos hv]
  have rc : Refines w.sizes adjust (clone w) (Spec.run w.sizes adjust Spec.init ops) :=
    ⟨rfl, r.adjust, r.minValid, fun u hu => by rw [hc u hu]; exact r.val u hu⟩
  obtain ⟨w1, e1, r1⟩ := run_refines hfit more r hmore
  obtain ⟨w2, e2, r2⟩ := run_refines hfit more rc hmore
  refine ⟨w, w1, w2, e, e1, e2, fun v hv => ⟨?_, ?_⟩, rfl, rfl, rfl⟩
  · rw [get_eq (w := clone w) hfit hv, get_eq hfit hv, hc v hv]
  · rw [get_eq (by rw [r2.sizes]; exact hfit) (by rw [r2.sizes]; exact hv),
      get_eq (by rw [r1.sizes]; exact hfit) (by rw [r1.sizes]; exact hv), r2.val v hv, r1.val v hv]

/-- The size condition of C04 is needed: the constructor only logs an error for larger grids, and
then reading an in-range voxel is an out-of-bounds access. -/
theorem C04_oversized_grid_reads_out_of_bounds :
    ∃ sizes v, InRange sizes v ∧ get (new sizes true) v = none :=
  ⟨⟨2 ^ 16, 2 ^ 16, 1, 1, 1, 1⟩, ⟨0, 0, 0, 0, 0, 0⟩, by decide, by decide +kernel⟩

/-- **C05**. The raw block copy `setDataRot` is not among the operations of the property (see
`C05_raw_copy_breaks_bound`): `NoRawCopy` excludes it. -/
theorem C05_max_entry_bounds (sizes : Vox) (adjust : Bool) (hfit : Fits sizes)
    (ops : List Op) (hadm : ∀ op ∈ ops, Admissible sizes op) (hraw : ∀ op ∈ ops, NoRawCopy op) :
    ∃ w, run (new sizes adjust) ops = some w ∧
      ∀ v, InRange sizes v → ∃ x, get w v = some x ∧ x ≤ w.maxEntry := by
  obtain ⟨w, e, r⟩ := run_refines hfit ops (init_refines sizes adjust) hadm
  have hw : w.sizes = sizes := r.sizes
  refine ⟨w, e, fun v hv => ?_⟩
  have := run_induct hfit (MaxOk sizes) NoRawCopy (step_maxOk (adj := adjust) hfit) ops
    (init_refines sizes adjust) hadm hraw (fun _ _ => Nat.zero_le _) e
  exact ⟨val w v, get_eq (by rw [hw]; exact hfit) (by rw [hw]; exact hv), this v hv⟩

/-- The raw block copy does not maintain the maximum. -/
theorem C05_raw_copy_breaks_bound (sizes : Vox) (hfit : Fits sizes) (v : Vox)
    (hv : InRange sizes v) :
    ∃ w, run (new sizes true) [.setDataRot (fun _ => 7) v.a v.b v.c] = some w ∧
      get w v = some 7 ∧ w.maxEntry = 0 := by
  obtain ⟨w, e, sm, hm, _, hval⟩ := setDataRot_spec (w := new sizes true) (src := fun _ => 7) hfit
    hv.1 hv.2.1 hv.2.2.1
  refine ⟨w, by simp [run, step, e], ?_, hm⟩
  rw [get_eq (by rw [sm.sizes]; exact hfit) (by rw [sm.sizes]; exact hv), hval v hv]; simp

/-- **C06** (partial: histories that never store a zero). The reported fill count is the number of
non-zero voxels. -/
theorem C06_fill_count_partial (sizes : Vox) (adjust : Bool) (hfit : Fits sizes)
    (ops : List Op) (hadm : ∀ op ∈ ops, Admissible sizes op) (hnz : ∀ op ∈ ops, NonZeroWrite op) :
    ∃ w, run (new sizes adjust) ops = some w ∧
      IsCount sizes (fun v => (get w v).getD 0) w.filled := by
  obtain ⟨w, e, r⟩ := run_refines hfit ops (init_refines sizes adjust) hadm
  have hw : w.sizes = sizes := r.sizes
  refine ⟨w, e, ?_⟩
  have := run_induct hfit (fun w => w.minValid ≠ 0 ∧ Counted sizes w) NonZeroWrite
    (step_counted (adj := adjust) hfit) ops (init_refines sizes adjust) hadm hnz
    ⟨by simp [new], new_counted sizes adjust⟩ e
  refine count_congr this.2 (fun v hv => ?_)
  rw [get_eq (by rw [hw]; exact hfit) (by rw [hw]; exact hv)]; rfl

/-- The full C06 is false: writing 0 to an empty voxel is counted although nothing is stored. -/
theorem C06_zero_write_overcounts (sizes : Vox) (adjust : Bool) (hfit : Fits sizes) (v : Vox)
    (hv : InRange sizes v) :
    ∃ w, run (new sizes adjust) [.set v 0] = some w ∧ w.filled = 1 ∧
      ∀ u, InRange sizes u → get w u = some 0 := by
  obtain ⟨w, e, sm, _, hf, hval⟩ := setDatum_spec (w := new sizes adjust) (x := 0) hfit hv
  refine ⟨w, by simp [run, step, e], ?_, fun u hu => ?_⟩
  · rw [hf]; simp [new, val]
  · rw [get_eq (by rw [sm.sizes]; exact hfit) (by rw [sm.sizes]; exact hu), hval u hu]
    simp [new, val]

/-- **C07.** After any history leaving a positive minimum valid value, any sequence of statistics
updates keeps every reachable (non-zero) voxel reachable. -/
theorem C07_reachable_stays_reachable (sizes : Vox) (adjust : Bool) (hfit : Fits sizes)
    (pre post : List Op) (hpre : ∀ op ∈ pre, Admissible sizes op)
    (hpost : ∀ op ∈ post, Admissible sizes op) (hstat : ∀ op ∈ post, Statistics op)
    (hmin : (Spec.run sizes adjust Spec.init pre).minValid ≥ 1) :
    ∃ w w', run (new sizes adjust) pre = some w ∧ run w post = some w' ∧
      ∀ v x, InRange sizes v → get w v = some x → x > 0 → ∃ y, get w' v = some y ∧ y > 0 := by
  obtain ⟨w, e, r⟩ := run_refines hfit pre (init_refines sizes adjust) hpre
  obtain ⟨w', e', r'⟩ := run_refines hfit post r hpost
  refine ⟨w, w', e, e', fun v x hv hx hpos => ?_⟩
  have hgv : get w v = some (val w v) := get_eq (by rw [r.sizes]; exact hfit) (by rw [r.sizes]; exact hv)
  rw [hgv] at hx
  have hx : val w v = x := by simpa using hx
  refine ⟨val w' v, get_eq (by rw [r'.sizes]; exact hfit) (by rw [r'.sizes]; exact hv), ?_⟩
  rw [r'.val v hv]
  have h0 : (Spec.run sizes adjust Spec.init pre).val v > 0 := by rw [← r.val v hv]; omega
  generalize Spec.run sizes adjust Spec.init pre = s at hmin h0
  clear r r' e e' hpre hgv hpost
  induction post generalizing s with
  | nil => exact h0
  | cons op l ih =>
    have hst := hstat op (List.mem_cons_self ..)
    refine ih (fun o ho => hstat o (List.mem_cons_of_mem _ ho)) (Spec.step sizes adjust s op) ?_ ?_
    · cases op <;> simp_all [Spec.step, Statistics]; split; · simp_all
      · split <;> simp_all
    · cases op with
      | increase u =>
        simp only [Spec.step]
        split
        · simp only [put]; split <;> omega
        · split
          · simp only [halve]; split <;> omega
          · exact h0
      | bisect => simp only [Spec.step, halve]; split <;> omega
      | binarize => simp only [Spec.step]; omega
      | _ => simp [Statistics] at hst

/-- The condition on the minimum valid value is needed: with 0, binarising erases everything. -/
theorem C07_min_valid_zero_erases (sizes : Vox) (adjust : Bool) (hfit : Fits sizes) (v : Vox)
    (hv : InRange sizes v) :
    ∃ w w', run (new sizes adjust) [.setMinValid 0, .set v 1] = some w ∧ binarize w = some w' ∧
      get w v = some 1 ∧ get w' v = some 0 := by
  obtain ⟨w, e, hw⟩ := C04_store_is_a_map sizes adjust hfit [.setMinValid 0, .set v 1]
    (by simp [Admissible, hv])
  obtain ⟨w', e', hw'⟩ := C04_store_is_a_map sizes adjust hfit [.setMinValid 0, .set v 1, .binarize]
    (by simp [Admissible, hv])
  have hsplit : ∀ (l : List Op) (a b : WDA), run a l = some b →
      run a (l ++ [.binarize]) = binarize b := by
    intro l; induction l with
    | nil => intro a b h; simp [run] at h; subst h; cases hb : binarize a <;> simp [run, step, hb]
    | cons op l ih =>
      intro a b h
      simp only [run, List.cons_append] at h ⊢
      cases hs : step a op with
      | none => simp [hs] at h
      | some c => simp only [hs, Option.bind_some] at h ⊢; exact ih c b h
  refine ⟨w, w', e, ?_, ?_, ?_⟩
  · rw [← hsplit _ _ _ e]; exact e'
  · rw [hw v hv]; simp [Spec.run, Spec.step, put, Spec.init]
  · rw [hw' v hv]; simp [Spec.run, Spec.step, put, Spec.init]

/-- **C08.** Hit counts are exact while no voxel was hit more than 255 times, in any order of hits
and with or without overflow adjustment. -/
theorem C08_hit_counts_exact (sizes : Vox) (adjust : Bool) (hfit : Fits sizes) (hits : List Vox)
    (hin : ∀ v ∈ hits, InRange sizes v) (hcnt : ∀ v, hits.count v ≤ 255) :
    ∃ w, run (new sizes adjust) (hits.map .increase) = some w ∧
      ∀ v, InRange sizes v → get w v = some (hits.count v) := by
  obtain ⟨w, e, h⟩ := C04_store_is_a_map sizes adjust hfit (hits.map .increase)
    (by intro op ho; rw [List.mem_map] at ho; obtain ⟨v, hv, rfl⟩ := ho; exact hin v hv)
  refine ⟨w, e, fun v hv => ?_⟩
  rw [h v hv, spec_increase_val _ _ (by simpa [Spec.init] using hcnt)]
  simp [Spec.init]

/-- **C08**, saturation without overflow adjustment, for arbitrarily many hits. -/
theorem C08_hit_counts_saturate (sizes : Vox) (hfit : Fits sizes) (hits : List Vox)
    (hin : ∀ v ∈ hits, InRange sizes v) :
    ∃ w, run (new sizes false) (hits.map .increase) = some w ∧
      ∀ v, InRange sizes v → get w v = some (min 255 (hits.count v)) := by
  obtain ⟨w, e, h⟩ := C04_store_is_a_map sizes false hfit (hits.map .increase)
    (by intro op ho; rw [List.mem_map] at ho; obtain ⟨v, hv, rfl⟩ := ho; exact hin v hv)
  refine ⟨w, e, fun v hv => ?_⟩
  rw [h v hv, spec_increase_sat _ _ (by simp [Spec.init])]
  simp [Spec.init]

/-- **C09.** A neighbourhood write, in any state with fitting sizes: the centre gets the value,
every other voxel of the clipped cube is raised to at least the value and never lowered, and all
voxels outside the cube keep their value. -/
theorem C09_neighbourhood_write (w : WDA) (hfit : Fits w.sizes) (v : Vox) (x n : Nat)
    (hadm : Admissible w.sizes (.setNeighbours v x n)) :
    ∃ w', setDatumCheckNeighbors w v x n = some w' ∧ w'.sizes = w.sizes ∧
      get w' v = some x ∧
      ∀ u old, InRange w.sizes u → u ≠ v → get w u = some old →
        (InCube n v u → get w' u = some (max old x)) ∧ (¬ InCube n v u → get w' u = some old) := by
  obtain ⟨hv, _, hn⟩ := hadm
  obtain ⟨w', e, sm, _, hval⟩ := setDatumCheckNeighbors_spec (x := x) hfit hv hn
  have hg : ∀ u, InRange w.sizes u → get w' u = some (val w' u) := fun u hu =>
    get_eq (by rw [sm.sizes]; exact hfit) (by rw [sm.sizes]; exact hu)
  refine ⟨w', e, sm.sizes, by rw [hg v hv, hval v hv]; simp, ?_⟩
  intro u old hu huv ho
  rw [get_eq hfit hu] at ho
  have ho : val w u = old := by simpa using ho
  rw [hg u hu, hval u hu, if_neg huv]
  exact ⟨fun h => by rw [if_pos h, ho], fun h => by rw [if_neg h, ho]⟩

/-- **C10** is violated: the query answers 0 for every content of every fitting array. -/
theorem C10_max_summed_always_zero (w : WDA) (hfit : Fits w.sizes) :
    getMaxSummedAngleReachablity w = some 0 := by
  unfold getMaxSummedAngleReachablity
  have : ∀ l : List Vox, (∀ v ∈ l, v.a < w.sizes.a ∧ v.b < w.sizes.b ∧ v.c < w.sizes.c) →
      l.foldl (fun acc v => do
        let m ← acc
        let value ← sumAngleReachabilities w v.a v.b v.c
        return if value ≥ m then value else m) (some 0) = some 0 := by
    intro l
    induction l with
    | nil => intro _; rfl
    | cons v l ih =>
      intro h
      obtain ⟨a, b, c⟩ := h v (List.mem_cons_self ..)
      rw [List.foldl_cons]
      simp only [Option.bind_eq_bind, Option.bind_some, sumAngle_zero hfit a b c]
      exact ih (fun u hu => h u (List.mem_cons_of_mem _ hu))
  apply this
  intro v hv
  rw [mem_voxels] at hv
  exact ⟨hv.1, hv.2.1, hv.2.2.1⟩

/-- **C10**, concrete violation: a voxel of the block of a position holds `x`, so the largest sum
is at least `x`, but the query answers 0. -/
theorem C10_max_summed_wrong (sizes : Vox) (hfit : Fits sizes) (v : Vox) (hv : InRange sizes v)
    (x : Nat) (hx : 0 < x ∧ x ≤ 255) :
    ∃ w, run (new sizes true) [.set v x] = some w ∧ get w v = some x ∧
      getMaxSummedAngleReachablity w = some 0 := by
  obtain ⟨w, e, r⟩ := run_refines hfit [.set v x] (init_refines sizes true) (by simp [Admissible, hv, hx])
  refine ⟨w, e, ?_, C10_max_summed_always_zero w (by rw [r.sizes]; exact hfit)⟩
  rw [get_eq (by rw [r.sizes]; exact hfit) (by rw [r.sizes]; exact hv), r.val v hv]
  simp [Spec.run, Spec.step, put]

/-- **C10** (partial): on an array all of whose voxels are 0 the answer is the true maximum. -/
theorem C10_max_summed_partial (w : WDA) (hfit : Fits w.sizes)
    (hz : ∀ v, InRange w.sizes v → get w v = some 0) (hne : ∃ v, InRange w.sizes v) :
    ∃ m, getMaxSummedAngleReachablity w = some m ∧
      ∃ v, InRange w.sizes v ∧ get w v = some m :=
  ⟨0, C10_max_summed_always_zero w hfit, hne.elim fun v hv => ⟨v, hv, hz v hv⟩⟩

/-! ## Non-vacuity -/

/-- A realistic grid: 100³ positions, 32³ orientations. -/
def exSize : Vox := ⟨100, 100, 100, 32, 32, 32⟩

example : Fits exSize := by unfold Fits exSize; decide

/-- An admissible, non-zero-writing history touching most operations. -/
def exOps : List Op :=
  [.set ⟨3, 4, 5, 6, 7, 8⟩ 200, .increase ⟨99, 99, 99, 31, 31, 31⟩, .setNeighbours ⟨0, 1, 99, 0, 31, 16⟩ 9 2,
   .setMinValid 3, .bisect, .goOnWithClone, .binarize, .getDataRot 1 2 3]

example : ∀ op ∈ exOps, Admissible exSize op := by
  intro op h; simp [exOps] at h
  rcases h with rfl | rfl | rfl | rfl | rfl | rfl | rfl | rfl <;>
    simp [Admissible, exSize, InRange]
example : ∀ op ∈ exOps, NonZeroWrite op ∧ NoRawCopy op := by
  intro op h; simp [exOps] at h
  rcases h with rfl | rfl | rfl | rfl | rfl | rfl | rfl | rfl <;> simp [NonZeroWrite, NoRawCopy]
example : (Spec.run exSize true Spec.init exOps).minValid ≥ 1 := by decide
example : (Spec.run exSize true Spec.init exOps).val ⟨3, 4, 5, 6, 7, 8⟩ = 3 := by decide
example : (Spec.run exSize true Spec.init exOps).val ⟨2, 0, 98, 1, 31, 18⟩ = 3 := by decide
example : (Spec.run exSize true Spec.init exOps).val ⟨99, 99, 99, 31, 31, 31⟩ = 1 := by decide
/-- C08 with 2 hits on one voxel, 1 on another. -/
example : ∀ v, [(⟨1,2,3,4,5,6⟩ : Vox), ⟨0,0,0,0,0,0⟩, ⟨1,2,3,4,5,6⟩].count v ≤ 255 := by
  intro v; exact Nat.le_trans List.count_le_length (by decide)

end Simox.Workspace
