import Verif.Mnp.Spec
import Mathlib.Tactic.Linarith
import Mathlib.Tactic.Positivity
import Mathlib.Tactic.FieldSimp
import Mathlib.Tactic.FinCases
import Mathlib.Tactic.IntervalCases
import Mathlib.Data.List.Perm.Basic

/-!
# C176, C177, C178: maps of the quality
-/

namespace Simox.Mnp

open Spec

/-! ## Lemmas -/

theorem entry_def (maxManip m : ℝ) (s : ℝ) (hs : s = if m < 0 then 0 else if m / maxManip > 1 then 1 else m / maxManip) :
    entry maxManip m = if ⌊s * 255 + 1 / 2⌋₊ = 0 then 1 else ⌊s * 255 + 1 / 2⌋₊ := by
  subst hs
  rfl

theorem entry_bounds {maxManip : ℝ} (hM : 0 < maxManip) (m : ℝ) : 1 ≤ entry maxManip m ∧ entry maxManip m ≤ 255 := by
  obtain ⟨s, hs⟩ : ∃ s, s = if m < 0 then 0 else if m / maxManip > 1 then 1 else m / maxManip := ⟨_, rfl⟩
  have h1 : 0 ≤ s ∧ s ≤ 1 := by
    rw [hs]
    split
    · exact ⟨le_refl _, zero_le_one⟩
    · split
      · exact ⟨zero_le_one, le_refl _⟩
      · exact ⟨div_nonneg (not_lt.mp ‹_›) hM.le, not_lt.mp ‹_›⟩
  rw [entry_def _ _ s hs]
  have hf : ⌊s * 255 + 1 / 2⌋₊ ≤ 255 := by
    have : s * 255 + 1 / 2 < (256 : ℕ) := by push_cast; linarith
    have := Nat.floor_lt (by linarith : 0 ≤ s * 255 + 1 / 2) |>.mpr this
    omega
  split <;> omega

/-- Within the range of the map the entry is the nearest one, but at least 1. -/
theorem entry_near {maxManip : ℝ} (hM : 0 < maxManip) {m : ℝ} (h0 : 0 ≤ m) (h1 : m ≤ maxManip) :
    m - maxManip / 510 ≤ (entry maxManip m : ℝ) / 255 * maxManip ∧
    (entry maxManip m : ℝ) / 255 * maxManip ≤ max (m + maxManip / 510) (maxManip / 255) := by
  have hle : ¬ m / maxManip > 1 := not_lt.mpr ((div_le_one hM).mpr h1)
  rw [entry_def _ _ (m / maxManip) (by rw [if_neg (not_lt.mpr h0), if_neg hle])]
  have hm : m = m / maxManip * maxManip := by field_simp
  obtain ⟨s, hs⟩ : ∃ s, m / maxManip = s := ⟨_, rfl⟩
  rw [hs] at hm ⊢
  have hs0 : 0 ≤ s := hs ▸ div_nonneg h0 hM.le
  have hfl := Nat.floor_le (by linarith : 0 ≤ s * 255 + 1 / 2)
  have hfl' := Nat.lt_floor_add_one (s * 255 + 1 / 2)
  rw [hm]
  split
  · rename_i hz
    rw [hz] at hfl'
    push_cast at hfl' ⊢
    refine ⟨?_, le_max_of_le_right ?_⟩
    · have : s * 255 * maxManip ≤ 1 / 2 * maxManip := mul_le_mul_of_nonneg_right (by linarith) hM.le
      linarith
    · linarith
  · refine ⟨?_, le_max_of_le_left ?_⟩
    · have := mul_le_mul_of_nonneg_right hfl'.le hM.le
      linarith
    · have := mul_le_mul_of_nonneg_right hfl hM.le
      linarith

theorem addPose_max {V : Type} [DecidableEq V] (M : ℝ) (d : Data V) (x : Option V × ℝ) (v : V) :
    addPose M d x v = if x.1 = some v then max (d v) (entry M x.2) else d v := by
  obtain ⟨o, m⟩ := x
  cases o with
  | none =>
    rw [if_neg (by simp)]
    rfl
  | some w =>
    show (if entry M m > d w then Function.update d w (entry M m) else d) v = _
    by_cases hw : w = v
    · subst hw
      rw [if_pos rfl]
      by_cases h : entry M m > d w
      · rw [if_pos h, Function.update_self, max_eq_right h.le]
      · rw [if_neg h, max_eq_left (not_lt.mp h)]
    · have hne : ¬ (some w, m).1 = some v := fun h => hw (Option.some.inj h)
      rw [if_neg hne]
      by_cases h : entry M m > d w
      · rw [if_pos h, Function.update_of_ne (Ne.symm hw)]
      · rw [if_neg h]

theorem map_entry {V : Type} [DecidableEq V] (M : ℝ) (xs : List (Option V × ℝ)) (d : Data V) (v : V) :
    (∀ m, (some v, m) ∈ xs → entry M m ≤ xs.foldl (addPose M) d v) ∧ d v ≤ xs.foldl (addPose M) d v ∧
    (xs.foldl (addPose M) d v = d v ∨ ∃ m, (some v, m) ∈ xs ∧ xs.foldl (addPose M) d v = entry M m) := by
  induction xs generalizing d with
  | nil => simp
  | cons x r ih =>
    obtain ⟨a, b, c⟩ := ih (addPose M d x)
    rw [List.foldl_cons]
    have hx := addPose_max M d x v
    refine ⟨fun m hm => ?_, ?_, ?_⟩
    · rcases List.mem_cons.mp hm with rfl | hm
      · rw [if_pos rfl] at hx
        exact (le_max_right _ _).trans (hx ▸ b)
      · exact a m hm
    · refine le_trans ?_ b
      rw [hx]
      split
      · exact le_max_left _ _
      · exact le_refl _
    · rcases c with c | ⟨m, hm, e⟩
      · rw [c, hx]
        by_cases h : x.1 = some v
        · rw [if_pos h]
          rcases max_choice (d v) (entry M x.2) with e | e
          · exact Or.inl e
          · exact Or.inr ⟨x.2, by rw [← h]; exact List.mem_cons_self, e⟩
        · rw [if_neg h]
          exact Or.inl rfl
      · exact Or.inr ⟨m, List.mem_cons_of_mem _ hm, e⟩

theorem foldl_filter_append {A B : Type} (p : A → Prop) [DecidablePred p] (f : A → B) (l : List A) (acc : List B) :
    l.foldl (fun acc g => if p g then acc ++ [f g] else acc) acc = acc ++ (l.filter p).map f := by
  induction l generalizing acc with
  | nil => simp
  | cons x r ih =>
    rw [List.foldl_cons, List.filter_cons]
    by_cases h : p x
    · rw [if_pos h, ih, if_pos (by simpa using h)]
      simp
    · rw [if_neg h, ih, if_neg (by simpa using h)]

/-! ## Maps, one thread -/

/-- **C176.** For all sequences of poses added to an empty map: at a voxel the map holds the entry of the best
pose there. The quality it reports at a pose is, up to half a step of the 255 steps, at least that of
every pose that was added there (if it is not larger than the largest quality of the map), and at most that of
one of them; reachable voxels report at least one step. It reports 0 exactly where no pose was added, and outside. -/
theorem C176_map {V : Type} [DecidableEq V] (M : ℝ) (hM : 0 < M) (xs : List (Option V × ℝ)) (v : V) :
    let q := atPose M (xs.foldl (addPose M) fun _ => 0) (some v)
    (∀ m, (some v, m) ∈ xs → m ≤ M → m - M / 510 ≤ q) ∧
    (∀ m, (some v, m) ∈ xs → M / 255 ≤ q) ∧
    (q = 0 ↔ ∀ m, (some v, m) ∉ xs) ∧
    ((∃ m, (some v, m) ∈ xs) → (∀ m, (some v, m) ∈ xs → 0 ≤ m ∧ m ≤ M) →
      ∃ m, (some v, m) ∈ xs ∧ q ≤ max (m + M / 510) (M / 255)) ∧
    q ≤ M ∧ atPose M (xs.foldl (addPose M) fun _ => 0) none = 0 := by
  obtain ⟨a, b, c⟩ := map_entry M xs (fun _ => 0) v
  obtain ⟨e, he⟩ : ∃ e, xs.foldl (addPose M) (fun _ => 0) v = e := ⟨_, rfl⟩
  have hq : atPose M (xs.foldl (addPose M) fun _ => 0) (some v) = (e : ℝ) / 255 * M := by
    show ((xs.foldl (addPose M) (fun _ => 0) v : ℕ) : ℝ) / 255 * M = _
    rw [he]
  rw [he] at a c
  have mono : ∀ k : ℕ, k ≤ e → (k : ℝ) / 255 * M ≤ (e : ℝ) / 255 * M := by
    intro k hk
    have : (k : ℝ) ≤ e := by exact_mod_cast hk
    exact mul_le_mul_of_nonneg_right (by linarith) hM.le
  have hone : ∀ m, (some v, m) ∈ xs → M / 255 ≤ (e : ℝ) / 255 * M := by
    intro m hm
    have h := mono 1 ((entry_bounds hM m).1.trans (a m hm))
    push_cast at h
    linarith
  intro q
  have hqe : q = (e : ℝ) / 255 * M := hq
  refine ⟨fun m hm hle => ?_, fun m hm => by rw [hqe]; exact hone m hm, ?_, fun ⟨m0, hm0⟩ hr => ?_, ?_, rfl⟩
  · rw [hqe]
    rcases lt_or_ge m 0 with h | h
    · have : 0 ≤ (e : ℝ) / 255 * M := by positivity
      have : 0 < M / 510 := by positivity
      linarith
    · exact (entry_near hM h hle).1.trans (mono _ (a m hm))
  · rw [hqe]
    constructor
    · intro h m hm
      have := hone m hm
      have : 0 < M / 255 := by positivity
      linarith
    · intro h
      rcases c with c | ⟨m, hm, -⟩
      · rw [c]
        simp
      · exact absurd hm (h m)
  · rcases c with c | ⟨m, hm, c⟩
    · have := hone m0 hm0
      rw [c] at this
      have : 0 < M / 255 := by positivity
      simp at *
      linarith
    · refine ⟨m, hm, ?_⟩
      rw [hqe, c]
      exact (entry_near hM (hr m hm).1 (hr m hm).2).2
  · rw [hqe]
    have : e ≤ 255 := by
      rcases c with c | ⟨m, -, c⟩
      · rw [c]; exact Nat.zero_le _
      · rw [c]; exact (entry_bounds hM m).2
    have h : (e : ℝ) ≤ 255 := by exact_mod_cast this
    have : (e : ℝ) / 255 * M ≤ 1 * M := mul_le_mul_of_nonneg_right (by linarith) hM.le
    linarith

/-- **C176.** The map does not depend on the order of the poses. -/
theorem C176_order {V : Type} [DecidableEq V] (M : ℝ) (xs ys : List (Option V × ℝ)) (h : xs.Perm ys) (d : Data V) :
    xs.foldl (addPose M) d = ys.foldl (addPose M) d := by
  funext v
  obtain ⟨a, b, c⟩ := map_entry M xs d v
  obtain ⟨a', b', c'⟩ := map_entry M ys d v
  apply le_antisymm
  · rcases c with c | ⟨m, hm, c⟩
    · rw [c]; exact b'
    · rw [c]; exact a' m (h.mem_iff.mp hm)
  · rcases c' with c | ⟨m, hm, c⟩
    · rw [c]; exact b
    · rw [c]; exact a m (h.mem_iff.mpr hm)

/-- **C176.** Analysing grasps gives exactly those with a positive quality, best first; the reachable grasps
are exactly the grasps that the map covers, in their order. -/
theorem C176_grasps {A : Type} [DecidableEq A] (sort : List (ℝ × A) → List (ℝ × A))
    (hs : ∀ l, (sort l).Perm l ∧ (sort l).Pairwise fun a b => b.1 ≤ a.1) (q : A → ℝ) (covered : A → Bool) (gs : List A) :
    (∀ x, x ∈ analyseGrasps sort q gs ↔ x.2 ∈ gs ∧ x.1 = q x.2 ∧ 0 < q x.2) ∧
    (analyseGrasps sort q gs).Pairwise (fun a b => b.1 ≤ a.1) ∧
    (gs.Nodup → (analyseGrasps sort q gs).Nodup) ∧
    getReachableGrasps covered gs = gs.filter covered := by
  classical
  have e : analyseGrasps sort q gs = sort ((gs.filter fun g => q g > 0).map fun g => (q g, g)) := by
    unfold analyseGrasps
    have := foldl_filter_append (fun g => q g > 0) (fun g => (q g, g)) gs []
    rw [List.nil_append] at this
    rw [← this]
  obtain ⟨hp, hsort⟩ := hs ((gs.filter fun g => q g > 0).map fun g => (q g, g))
  rw [e]
  refine ⟨fun x => ?_, hsort, fun hn => ?_, ?_⟩
  · rw [hp.mem_iff, List.mem_map]
    constructor
    · rintro ⟨g, hg, rfl⟩
      rw [List.mem_filter] at hg
      exact ⟨hg.1, rfl, by simpa using hg.2⟩
    · rintro ⟨h1, h2, h3⟩
      exact ⟨x.2, List.mem_filter.mpr ⟨h1, by simpa using h3⟩, by rw [← h2]⟩
  · rw [hp.nodup_iff]
    exact (hn.filter _).map fun a b h => (Prod.mk.inj h).2
  · unfold getReachableGrasps
    have := foldl_filter_append (fun g => covered g = true) id gs []
    simpa using this

/-- A concrete case of C176. -/
example : ((some 0, 1 / 2) : Option ℕ × ℝ) ∈ [((some 0, 1 / 2) : Option ℕ × ℝ), (none, 3), (some 1, 2)] := by simp

/-! ## Maps, many threads -/

/-- What the threads have still to add: nothing else than their poses. -/
def Pending {V : Type} (ws : ℕ → Worker V) (x : V × ℕ) : Prop :=
  ∃ t, x ∈ (ws t).todo ∨ (ws t).write = some x

theorem run_inv {V : Type} (P : V × ℕ → Prop) (sched : List ℕ) (d : Data V)
    (ws : ℕ → Worker V) (hw : ∀ x, Pending ws x → P x) :
    (∀ v, (run d ws sched).1 v = d v ∨ P (v, (run d ws sched).1 v)) ∧
    (∀ x, Pending (run d ws sched).2 x → P x) := by
  classical
  induction sched generalizing d ws with
  | nil => exact ⟨fun v => Or.inl rfl, hw⟩
  | cons t r ih =>
    have hstep : (∀ v, ((ws t).step d).1 v = d v ∨ P (v, ((ws t).step d).1 v)) ∧
        ∀ x, Pending (Function.update ws t ((ws t).step d).2) x → P x := by
      have hsub : ∀ w' : Worker V, (∀ x, x ∈ w'.todo ∨ w'.write = some x → P x) →
          ∀ x, Pending (Function.update ws t w') x → P x := by
        rintro w' h x ⟨u, hu⟩
        by_cases e : u = t
        · subst e
          rw [Function.update_self] at hu
          exact h x hu
        · rw [Function.update_of_ne e] at hu
          exact hw x ⟨u, hu⟩
      unfold Worker.step
      cases hwr : (ws t).write with
      | some x =>
        refine ⟨fun v => ?_, hsub _ ?_⟩
        · show Function.update d x.1 x.2 v = d v ∨ P (v, Function.update d x.1 x.2 v)
          by_cases e : v = x.1
          · subst e
            rw [Function.update_self]
            exact Or.inr (hw x ⟨t, Or.inr hwr⟩)
          · rw [Function.update_of_ne e]
            exact Or.inl rfl
        · rintro y (hy | hy)
          · exact hw y ⟨t, Or.inl hy⟩
          · exact absurd hy (by simp)
      | none =>
        cases htd : (ws t).todo with
        | nil =>
          refine ⟨fun v => Or.inl rfl, hsub _ ?_⟩
          intro y hy
          exact hw y ⟨t, hy⟩
        | cons x q =>
          show (∀ v, (if x.2 > d x.1 then (d, (⟨q, some x⟩ : Worker V)) else (d, ⟨q, none⟩)).1 v = d v ∨ _) ∧ _
          by_cases hc : x.2 > d x.1
          · simp only [if_pos hc]
            refine ⟨fun v => Or.inl trivial, hsub _ ?_⟩
            rintro y (hy | hy)
            · exact hw y ⟨t, Or.inl (by rw [htd]; exact List.mem_cons_of_mem _ hy)⟩
            · cases hy
              exact hw x ⟨t, Or.inl (by rw [htd]; exact List.mem_cons_self)⟩
          · simp only [if_neg hc]
            refine ⟨fun v => Or.inl trivial, hsub _ ?_⟩
            rintro y (hy | hy)
            · exact hw y ⟨t, Or.inl (by rw [htd]; exact List.mem_cons_of_mem _ hy)⟩
            · exact absurd hy (by simp)
    obtain ⟨a, b⟩ := ih ((ws t).step d).1 _ hstep.2
    refine ⟨fun v => ?_, b⟩
    rcases a v with h | h
    · rcases hstep.1 v with h' | h'
      · exact Or.inl (h.trans h')
      · refine Or.inr ?_
        show P (v, (run ((ws t).step d).1 _ r).1 v)
        rw [h]
        exact h'
    · exact Or.inr h

/-- **C177.** For every number of threads and every schedule: an entry of the map is the one it had before
or the entry of a pose that one of the threads added at this voxel; so a voxel that is reachable stays
reachable, and no unreachable voxel is marked. -/
theorem C177_threads_partial {V : Type} (d : Data V) (poses : ℕ → List (V × ℕ)) (hp : ∀ t, ∀ x ∈ poses t, 0 < x.2)
    (sched : List ℕ) (v : V) :
    let d' := (run d (fun t => ⟨poses t, none⟩) sched).1
    (d' v = d v ∨ ∃ t, (v, d' v) ∈ poses t) ∧ (0 < d v → 0 < d' v) := by
  intro d'
  obtain ⟨a, -⟩ := run_inv (fun x : V × ℕ => ∃ t, x ∈ poses t) sched d
    (fun t => ⟨poses t, none⟩) (by
      rintro x ⟨t, hx | hx⟩
      · exact ⟨t, hx⟩
      · exact absurd hx (by simp))
  refine ⟨a v, fun h => ?_⟩
  rcases a v with e | ⟨t, e⟩
  · show 0 < (run d (fun t => ⟨poses t, none⟩) sched).1 v
    rw [e]
    exact h
  · exact hp t _ e

/-- **C177.** A single thread: when it has finished the entries are the largest ones. -/
theorem C177_one_thread {V : Type} (poses : List (V × ℕ)) (d : Data V) (v : V) :
    ∃ sched : List ℕ, (∀ t ∈ sched, t = 0) ∧
      ∀ more : List ℕ, (∀ t ∈ more, t = 0) →
        (∀ e, (v, e) ∈ poses → e ≤ (run d (fun _ => ⟨poses, none⟩) (sched ++ more)).1 v) ∧
        d v ≤ (run d (fun _ => ⟨poses, none⟩) (sched ++ more)).1 v := by
  classical
  have idle : ∀ (more : List ℕ), (∀ t ∈ more, t = 0) → ∀ (d : Data V) (ws : ℕ → Worker V), ws 0 = ⟨[], none⟩ →
      (run d ws more).1 = d := by
    intro more
    induction more with
    | nil => intro _ d ws _; rfl
    | cons t r ih =>
      intro h d ws hw
      have ht : t = 0 := h t List.mem_cons_self
      subst ht
      have hs : (ws 0).step d = (d, ⟨[], none⟩) := by rw [hw]; rfl
      show (run ((ws 0).step d).1 (Function.update ws 0 ((ws 0).step d).2) r).1 = d
      rw [hs]
      exact ih (fun t ht => h t (List.mem_cons_of_mem _ ht)) d _ (Function.update_self ..)
  have main : ∀ (poses : List (V × ℕ)) (d : Data V) (ws : ℕ → Worker V), ws 0 = ⟨poses, none⟩ →
      ∃ sched : List ℕ, (∀ t ∈ sched, t = 0) ∧ ∀ more : List ℕ, (∀ t ∈ more, t = 0) →
        (∀ e, (v, e) ∈ poses → e ≤ (run d ws (sched ++ more)).1 v) ∧ d v ≤ (run d ws (sched ++ more)).1 v := by
    intro poses
    induction poses with
    | nil =>
      intro d ws hw
      refine ⟨[], by simp, fun more hm => ?_⟩
      rw [List.nil_append, idle more hm d ws hw]
      exact ⟨fun e he => by simp at he, le_refl _⟩
    | cons x r ih =>
      intro d ws hw
      by_cases hc : x.2 > d x.1
      · have hs : (ws 0).step d = (d, ⟨r, some x⟩) := by
          rw [hw]
          show (if x.2 > d x.1 then (d, (⟨r, some x⟩ : Worker V)) else (d, ⟨r, none⟩)) = _
          rw [if_pos hc]
        obtain ⟨sched, h0, h⟩ := ih (Function.update d x.1 x.2)
          (Function.update (Function.update ws 0 ⟨r, some x⟩) 0 ⟨r, none⟩) (Function.update_self ..)
        have hd : d v ≤ Function.update d x.1 x.2 v := by
          by_cases e : v = x.1
          · subst e; rw [Function.update_self]; exact hc.le
          · rw [Function.update_of_ne e]
        refine ⟨0 :: 0 :: sched, ?_, fun more hm => ?_⟩
        · intro t ht
          rcases List.mem_cons.mp ht with e | ht
          · exact e
          · rcases List.mem_cons.mp ht with e | ht
            · exact e
            · exact h0 t ht
        have er : run d ws (0 :: 0 :: sched ++ more) = run (Function.update d x.1 x.2)
            (Function.update (Function.update ws 0 ⟨r, some x⟩) 0 ⟨r, none⟩) (sched ++ more) := by
          show run ((Function.update ws 0 ((ws 0).step d).2 0).step ((ws 0).step d).1).1
            (Function.update (Function.update ws 0 ((ws 0).step d).2) 0
              ((Function.update ws 0 ((ws 0).step d).2 0).step ((ws 0).step d).1).2) (sched ++ more) = _
          rw [hs]
          simp only [Function.update_self]
          have h2 : Worker.step d (⟨r, some x⟩ : Worker V) = (Function.update d x.1 x.2, ⟨r, none⟩) := by
            rfl
          rw [h2]
        rw [er]
        obtain ⟨a, b⟩ := h more hm
        refine ⟨fun e he => ?_, hd.trans b⟩
        rcases List.mem_cons.mp he with e' | he
        · subst e'
          have : Function.update d v e v = e := Function.update_self ..
          exact (le_of_eq this.symm).trans b
        · exact a e he
      · have hs : (ws 0).step d = (d, ⟨r, none⟩) := by
          rw [hw]
          show (if x.2 > d x.1 then (d, (⟨r, some x⟩ : Worker V)) else (d, ⟨r, none⟩)) = _
          rw [if_neg hc]
        obtain ⟨sched, h0, h⟩ := ih d (Function.update ws 0 ⟨r, none⟩) (Function.update_self ..)
        refine ⟨0 :: sched, ?_, fun more hm => ?_⟩
        · intro t ht
          rcases List.mem_cons.mp ht with e | ht
          · exact e
          · exact h0 t ht
        have er : run d ws (0 :: sched ++ more) = run d (Function.update ws 0 ⟨r, none⟩) (sched ++ more) := by
          show run ((ws 0).step d).1 (Function.update ws 0 ((ws 0).step d).2) (sched ++ more) = _
          rw [hs]
        rw [er]
        obtain ⟨a, b⟩ := h more hm
        refine ⟨fun e he => ?_, b⟩
        rcases List.mem_cons.mp he with e' | he
        · subst e'
          exact (not_lt.mp hc).trans b
        · exact a e he
  exact main poses d _ rfl

/-- **C177**, refuted for two threads: the better pose may be lost, because comparing and writing are not one
step. -/
theorem C177_threads_false :
    ∃ (poses : ℕ → List (ℕ × ℕ)) (sched : List ℕ),
      let r := run (fun _ => 0) (fun t => ⟨poses t, none⟩) sched
      (∀ t, (r.2 t).todo = [] ∧ (r.2 t).write = none) ∧ (0, 200) ∈ poses 1 ∧ r.1 0 = 100 := by
  refine ⟨fun t => if t = 0 then [(0, 100)] else if t = 1 then [(0, 200)] else [], [0, 1, 1, 0], ?_⟩
  intro r
  have h : r.1 0 = 100 ∧
      r.2 0 = ⟨[], none⟩ ∧ r.2 1 = ⟨[], none⟩ ∧ ∀ t, 2 ≤ t → r.2 t = ⟨[], none⟩ := by
    refine ⟨?_, ?_, ?_, fun t ht => ?_⟩
    · simp [r, run, Worker.step]
    · simp [r, run, Worker.step, Function.update]
    · simp [r, run, Worker.step, Function.update]
    · have h0 : t ≠ 0 := by omega
      have h1 : t ≠ 1 := by omega
      simp [r, run, Worker.step, Function.update, h0, h1]
  refine ⟨fun t => ?_, by simp, h.1⟩
  rcases Nat.lt_or_ge t 2 with ht | ht
  · interval_cases t
    · rw [h.2.1]; exact ⟨rfl, rfl⟩
    · rw [h.2.2.1]; exact ⟨rfl, rfl⟩
  · rw [h.2.2.2 t ht]; exact ⟨rfl, rfl⟩

/-- **C177**, refuted for the distance of the robot to itself: a thread that samples with a robot of its own
gets the distance between the parts of the original robot, which does not move. -/
theorem C177_self_distance_false :
    ∃ (sd : SelfDist ℕ ℕ) (member given : Option ℕ × Option ℕ) (a b : ℕ), given = (some a, some b) ∧
      selfDistVector sd true member given ≠ some (sd.vec a b) :=
  ⟨⟨fun a b => a + b⟩, (some 0, some 0), (some 1, some 1), 1, 1, rfl, by decide⟩

/-- **C177.** With the sets of the map itself (one thread) the distance is that of these sets, and without one of
them no distance is considered. -/
theorem C177_self_distance {S W : Type} (sd : SelfDist S W) (member given : Option S × Option S) :
    (∀ a b, member = (some a, some b) → selfDistVector sd true member given = some (sd.vec a b)) ∧
    selfDistVector sd false member given = none ∧
    (member.1 = none ∨ member.2 = none → selfDistVector sd true member given = none) := by
  refine ⟨fun a b h => by rw [h]; rfl, rfl, fun h => ?_⟩
  obtain ⟨x, y⟩ := member
  rcases h with h | h
  · have h : x = none := h
    subst h; rfl
  · have h : y = none := h
    subst h; cases x <;> rfl

/-! ## Smoothing -/

theorem neighbourhood_eq (xs : List ℕ) (a b : ℕ) :
    xs.foldl (fun acc e => if e > 0 then (acc.1 + e, acc.2 + 1) else acc) (a, b) =
      (a + (xs.filter (· > 0)).sum, b + (xs.filter (· > 0)).length) := by
  induction xs generalizing a b with
  | nil => simp
  | cons x r ih =>
    rw [List.foldl_cons, List.filter_cons]
    by_cases h : x > 0
    · rw [if_pos h, ih, if_pos (by simpa using h), List.sum_cons, List.length_cons]
      congr 1 <;> omega
    · rw [if_neg h, ih, if_neg (by simpa using h)]

theorem sum_bounds (l : List ℕ) (lo hi : ℕ) (h : ∀ x ∈ l, lo ≤ x ∧ x ≤ hi) :
    lo * l.length ≤ l.sum ∧ l.sum ≤ hi * l.length := by
  induction l with
  | nil => simp
  | cons x r ih =>
    obtain ⟨a, b⟩ := ih fun y hy => h y (List.mem_cons_of_mem _ hy)
    obtain ⟨c, d⟩ := h x List.mem_cons_self
    rw [List.sum_cons, List.length_cons, Nat.mul_add, Nat.mul_add, Nat.mul_one, Nat.mul_one]
    omega

theorem smoothed_pos (mn old : ℕ) (xs : List ℕ) (h : 0 < old) : 0 < smoothed mn old xs := by
  unfold smoothed
  obtain ⟨n, hn⟩ : ∃ n, neighbourhood xs = n := ⟨_, rfl⟩
  rw [hn]
  dsimp only
  by_cases h1 : n.2 ≥ (if mn ≤ 0 then 1 else mn)
  · rw [if_pos h1]
    by_cases h2 : n.1 / n.2 > 0
    · rw [if_pos h2]; exact h2
    · rw [if_neg h2]; exact h
  · rw [if_neg h1]; exact h

/-- The offsets are all vectors of -1, 0, 1. -/
theorem offsets_complete (o : Fin 6 → ℤ) : o ∈ offsets ↔ ∀ i, -1 ≤ o i ∧ o i ≤ 1 := by
  unfold offsets
  rw [List.mem_map]
  constructor
  · rintro ⟨k, -, rfl⟩ i
    have : (k / 3 ^ (5 - i.val)) % 3 < 3 := Nat.mod_lt _ (by norm_num)
    show -1 ≤ ((k / 3 ^ (5 - i.val) % 3 : ℕ) : ℤ) - 1 ∧ ((k / 3 ^ (5 - i.val) % 3 : ℕ) : ℤ) - 1 ≤ 1
    obtain ⟨n, hn⟩ : ∃ n, k / 3 ^ (5 - i.val) % 3 = n := ⟨_, rfl⟩
    rw [hn] at this ⊢
    omega
  · intro h
    have h0 := h 0; have h1 := h 1; have h2 := h 2; have h3 := h 3; have h4 := h 4; have h5 := h 5
    refine ⟨((o 0 + 1) * 243 + (o 1 + 1) * 81 + (o 2 + 1) * 27 + (o 3 + 1) * 9 + (o 4 + 1) * 3 + (o 5 + 1)).toNat,
      by rw [List.mem_range]; norm_num; omega, ?_⟩
    funext i
    obtain ⟨a, ha⟩ : ∃ a, o 0 + 1 = a := ⟨_, rfl⟩
    obtain ⟨b, hb⟩ : ∃ a, o 1 + 1 = a := ⟨_, rfl⟩
    obtain ⟨c, hc⟩ : ∃ a, o 2 + 1 = a := ⟨_, rfl⟩
    obtain ⟨d, hd⟩ : ∃ a, o 3 + 1 = a := ⟨_, rfl⟩
    obtain ⟨e, he⟩ : ∃ a, o 4 + 1 = a := ⟨_, rfl⟩
    obtain ⟨f, hf⟩ : ∃ a, o 5 + 1 = a := ⟨_, rfl⟩
    rw [ha, hb, hc, hd, he, hf]
    have e0 : o 0 = a - 1 := by omega
    have e1 : o 1 = b - 1 := by omega
    have e2 : o 2 = c - 1 := by omega
    have e3 : o 3 = d - 1 := by omega
    have e4 : o 4 = e - 1 := by omega
    have e5 : o 5 = f - 1 := by omega
    match i with
    | 0 => rw [e0]; norm_num; omega
    | 1 => rw [e1]; norm_num; omega
    | 2 => rw [e2]; norm_num; omega
    | 3 => rw [e3]; norm_num; omega
    | 4 => rw [e4]; norm_num; omega
    | 5 => rw [e5]; norm_num; omega

/-- **C178.** Smoothing changes inner cells only, and these from the old entries of the 729 cells around them.
A new entry lies between the smallest and the largest positive entry there; it is their mean, rounded down. A
cell that is reachable stays reachable, and a cell becomes reachable only if at least the given number of cells
around it are. -/
theorem C178_smooth (mn : ℕ) (size : Fin 6 → ℕ) (d : (Fin 6 → ℤ) → ℕ) (c : Fin 6 → ℤ) :
    (¬ (∀ i, 1 ≤ c i ∧ c i < (size i : ℤ) - 1) → smooth mn size d c = d c) ∧
    (0 < d c → 0 < smooth mn size d c) ∧
    (smooth mn size d c ≠ d c →
      ∃ pos : List ℕ, pos = (offsets.map fun o => d (c + o)).filter (· > 0) ∧ max 1 mn ≤ pos.length ∧
        smooth mn size d c = pos.sum / pos.length ∧
        ∀ lo hi, (∀ o : Fin 6 → ℤ, (∀ i, -1 ≤ o i ∧ o i ≤ 1) → 0 < d (c + o) → lo ≤ d (c + o) ∧ d (c + o) ≤ hi) →
          lo ≤ smooth mn size d c ∧ smooth mn size d c ≤ hi) := by
  refine ⟨fun h => ?_, fun h => ?_, fun h => ?_⟩
  · unfold smooth
    rw [if_neg h]
  · unfold smooth
    by_cases hc : ∀ i, 1 ≤ c i ∧ c i < (size i : ℤ) - 1
    · rw [if_pos hc]
      exact smoothed_pos mn _ _ h
    · rw [if_neg hc]
      exact h
  · unfold smooth at h ⊢
    by_cases hc : ∀ i, 1 ≤ c i ∧ c i < (size i : ℤ) - 1
    · rw [if_pos hc] at h ⊢
      obtain ⟨xs, hxs⟩ : ∃ xs, (offsets.map fun o => d (c + o)) = xs := ⟨_, rfl⟩
      rw [hxs] at h ⊢
      have hn : neighbourhood xs = ((xs.filter (· > 0)).sum, (xs.filter (· > 0)).length) := by
        unfold neighbourhood
        rw [neighbourhood_eq, Nat.zero_add, Nat.zero_add]
      obtain ⟨pos, hpos⟩ : ∃ pos, xs.filter (· > 0) = pos := ⟨_, rfl⟩
      rw [hpos] at hn
      unfold smoothed at h ⊢
      rw [hn] at h ⊢
      dsimp only at h ⊢
      by_cases h1 : pos.length ≥ (if mn ≤ 0 then 1 else mn)
      · rw [if_pos h1] at h ⊢
        by_cases h2 : pos.sum / pos.length > 0
        · rw [if_pos h2] at h ⊢
          have hge : max 1 mn ≤ pos.length := by
            split at h1
            · rw [max_eq_left (by omega)]; exact h1
            · rw [max_eq_right (by omega)]; exact h1
          refine ⟨pos, hpos.symm, hge, rfl, fun lo hi hb => ?_⟩
          have hm : ∀ x ∈ pos, lo ≤ x ∧ x ≤ hi := by
            intro x hx
            rw [← hpos, List.mem_filter, ← hxs, List.mem_map] at hx
            obtain ⟨⟨o, ho, rfl⟩, hx0⟩ := hx
            exact hb o ((offsets_complete o).mp ho) (by simpa using hx0)
          obtain ⟨a, b⟩ := sum_bounds pos lo hi hm
          have hl : 0 < pos.length := lt_of_lt_of_le (by omega) hge
          exact ⟨(Nat.le_div_iff_mul_le hl).mpr a, Nat.div_le_of_le_mul (by rw [Nat.mul_comm]; exact b)⟩
        · rw [if_neg h2] at h
          exact absurd rfl h
      · rw [if_neg h1] at h
        exact absurd rfl h
    · rw [if_neg hc] at h
      exact absurd rfl h

/-- **C178.** With enough reachable cells around it an inner cell gets the mean. -/
theorem C178_inner (mn : ℕ) (size : Fin 6 → ℕ) (d : (Fin 6 → ℤ) → ℕ) (c : Fin 6 → ℤ)
    (hc : ∀ i, 1 ≤ c i ∧ c i < (size i : ℤ) - 1)
    (hn : max 1 mn ≤ ((offsets.map fun o => d (c + o)).filter (· > 0)).length) :
    smooth mn size d c = ((offsets.map fun o => d (c + o)).filter (· > 0)).sum /
      ((offsets.map fun o => d (c + o)).filter (· > 0)).length := by
  unfold smooth
  rw [if_pos hc]
  obtain ⟨xs, hxs⟩ : ∃ xs, (offsets.map fun o => d (c + o)) = xs := ⟨_, rfl⟩
  rw [hxs] at hn ⊢
  have hnb : neighbourhood xs = ((xs.filter (· > 0)).sum, (xs.filter (· > 0)).length) := by
    unfold neighbourhood
    rw [neighbourhood_eq, Nat.zero_add, Nat.zero_add]
  unfold smoothed
  rw [hnb]
  dsimp only
  have hl : 0 < (xs.filter (· > 0)).length := lt_of_lt_of_le (by omega) hn
  rw [if_pos (by split <;> omega), if_pos]
  have := sum_bounds (xs.filter (· > 0)) 1 ((xs.filter (· > 0)).sum) (by
    intro x hx
    refine ⟨?_, List.single_le_sum (fun _ _ => Nat.zero_le _) x hx⟩
    have := (List.mem_filter.mp hx).2
    simp at this
    omega)
  exact Nat.div_pos (by omega) hl

/-- A concrete case of C178: an inner cell of a map with three cells in each dimension. -/
example : ∀ i : Fin 6, 1 ≤ (fun _ => 1 : Fin 6 → ℤ) i ∧ (fun _ => 1 : Fin 6 → ℤ) i < ((3 : ℕ) : ℤ) - 1 := by
  intro i
  norm_num

end Simox.Mnp
