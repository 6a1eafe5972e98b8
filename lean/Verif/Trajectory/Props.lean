import Verif.Trajectory.Lemmas
import Verif.CSpace.Props

/-!
# Properties C16 – C18: trajectories
-/

namespace Simox.Trajectory

open Spec Simox.CSpace

variable {E : Type}

/-! ## C16: editing -/

/-- **C16.** Inserting a point at a valid position (`pos ≤ size`) puts it there, shifts the later points
by one and keeps the others; at an invalid position nothing changes. -/
theorem C16_insert (path : List E) (pos : Nat) (c : E) :
    (pos ≤ path.length → Inserted path pos [c] (insertPosition path pos c)) ∧
    (path.length < pos → insertPosition path pos c = path) := by
  unfold insertPosition
  refine ⟨fun h => ?_, fun h => if_pos h⟩
  rw [if_neg (by omega)]
  simpa [insertAt] using inserted_insertAt path pos [c] h

/-- **C16.** Inserting a list of points keeps their order. -/
theorem C16_insert_many (path : List E) (pos : Nat) (cs : List E) :
    (pos ≤ path.length → Inserted path pos cs (insertMany path pos cs)) ∧
    (path.length < pos → insertMany path pos cs = path) := by
  refine ⟨fun h => ?_, fun h => insertMany_out cs path pos h⟩
  rw [insertMany_eq cs path pos h]
  exact inserted_insertAt path pos cs h

/-- **C16.** Inserting another trajectory keeps the order of its points. -/
theorem C16_insert_trajectory [Zero E] (path other : List E) (pos : Nat) :
    (pos ≤ path.length → Inserted path pos other (insertTrajectory path pos (.other other))) ∧
    (path.length < pos → insertTrajectory path pos (.other other) = path) := by
  refine ⟨fun h => ?_, fun h => insertTrajLoop_out other pos _ path h⟩
  change Inserted path pos other (insertTrajLoop other pos other.length path)
  rw [insertTrajLoop_eq other pos _ path h (le_refl _), List.take_length]
  exact inserted_insertAt path pos other h

/-- **C16.** Appending a trajectory to itself works … -/
theorem C16_append_self [Zero E] (path : List E) :
    insertTrajectory path path.length .self = path ++ path := by
  unfold insertTrajectory
  have key : ∀ (k : Nat), k ≤ path.length → ∀ tl : List E,
      insertSelfLoop path.length k (path ++ tl) = path ++ path.take k ++ tl := by
    intro k
    induction k with
    | zero => intro _ tl; simp [insertSelfLoop]
    | succ k ih =>
      intro hk tl
      have hg : getPoint (path ++ tl) k = getPoint path k := by
        have h1 := getPoint_lt (path := path ++ tl) (i := k) (by simp; omega)
        have h2 := getPoint_lt (path := path) (i := k) (by omega)
        rw [List.getElem?_append_left (by omega), h2] at h1
        exact (Option.some.inj h1).symm
      rw [insertSelfLoop, hg, insertPosition, if_neg (by simp), insertAt, List.take_left,
        List.drop_left, ih (by omega), List.take_add_one, getPoint_lt (path := path) (by omega)]
      simp
  have := key path.length (le_refl _) []
  simpa using this

/-- … but inserting a trajectory into itself at the front does not insert its points: the loop reads the path it is editing. (Violation of C16.) -/
theorem C16_insert_self_wrong :
    insertTrajectory [1, 2, 3] 0 (.self : Arg ℤ) = [1, 1, 3, 1, 2, 3] ∧
    ¬ Inserted ([1, 2, 3] : List ℤ) 0 [1, 2, 3] (insertTrajectory [1, 2, 3] 0 .self) := by
  constructor
  · rfl
  · rintro ⟨_, _, h, _⟩
    have := h 1 (by decide)
    revert this
    decide

/-- **C16.** `removePositions(s, e)` removes exactly the points `s, …, e` and returns their number;
`erasePosition(pos)` removes exactly the point `pos`; invalid positions change nothing. -/
theorem C16_remove (path : List E) (s e : Nat) :
    (s ≤ e ∧ e < path.length →
      (removePositions path s e).1 = e + 1 - s ∧
      Removed path s (e + 1 - s) (removePositions path s e).2) ∧
    (¬ (s ≤ e ∧ e < path.length) → removePositions path s e = (0, path)) ∧
    (s < path.length → Removed path s 1 (erasePosition path s)) ∧
    (path.length ≤ s → erasePosition path s = path) := by
  refine ⟨fun ⟨h1, h2⟩ => ?_, fun h => ?_, fun h => ?_, fun h => if_pos h⟩
  · have e1 : removePositions path s e =
        (0 + (e + 1 - s), path.take s ++ path.drop (s + (e + 1 - s))) := by
      unfold removePositions
      rw [if_neg (by omega), if_neg (by omega), removeLoop_eq _ _ _ _ (by omega)]
    rw [e1]
    exact ⟨by simp, removed_drop path s _ (by omega)⟩
  · unfold removePositions
    split
    · rfl
    · rw [if_pos (by omega)]
  · unfold erasePosition
    rw [if_neg (by omega)]
    exact removed_drop path s 1 (by omega)

/-- **C16.** `createSubPath` and `getPoints` return exactly the requested points, `clone` all of them. -/
theorem C16_slices [Zero E] (path store : List E) (s e : Nat) :
    (s < path.length ∧ e < path.length →
      ∃ sub, createSubPath path s e = some sub ∧ Slice path s e sub) ∧
    (¬ (s < path.length ∧ e < path.length) → createSubPath path s e = none) ∧
    (s ≤ e ∧ e < path.length →
      ∃ sub, getPoints path s e store = (true, store ++ sub) ∧ Slice path s e sub) ∧
    (¬ (s ≤ e ∧ e < path.length) → getPoints path s e store = (false, store)) ∧
    clone path = path := by
  have sl : e < path.length → s ≤ path.length →
      Slice path s e ((path.drop s).take (e + 1 - s)) := by
    intro he hs
    refine ⟨by simp; omega, fun j hj => ?_⟩
    rw [List.getElem?_take_of_lt (by omega), List.getElem?_drop]
  refine ⟨fun ⟨h1, h2⟩ => ?_, fun h => ?_, fun ⟨h1, h2⟩ => ?_, fun h => ?_, ?_⟩
  · refine ⟨_, ?_, sl h2 h1.le⟩
    unfold createSubPath
    rw [if_neg (by omega)]
    rcases Nat.lt_or_ge e s with h | h
    · rw [show e + 1 - s = 0 by omega]; simp [copyLoop]
    · rw [copyLoop_eq _ _ _ _ (by omega)]; rfl
  · unfold createSubPath; rw [if_pos (by omega)]
  · refine ⟨_, ?_, sl h2 (by omega)⟩
    unfold getPoints
    rw [if_neg (by omega), copyLoop_eq _ _ _ _ (by omega)]
  · unfold getPoints; rw [if_pos (by omega)]
  · unfold clone; rw [copyLoop_eq _ _ _ _ (by omega)]; simp

/-- **C16.** Reversing mirrors the indices, and reversing twice is the identity. -/
theorem C16_reverse (path : List E) :
    (reverse path).length = path.length ∧
    (∀ j, j < path.length → (reverse path)[j]? = path[path.length - 1 - j]?) ∧
    reverse (reverse path) = path := by
  unfold reverse
  exact ⟨List.length_reverse, fun j hj => List.getElem?_reverse hj, List.reverse_reverse path⟩

/-- Points handed to the trajectory by an editing call. -/
def Op.given : Op E → List E
  | .add c => [c]
  | .insert _ c => [c]
  | .insertMany _ cs => cs
  | .insertTraj _ (.other o) => o
  | .setRef _ c => [c]
  | _ => []

theorem mem_insertPosition {path : List E} {pos : Nat} {c x : E}
    (h : x ∈ insertPosition path pos c) : x ∈ path ∨ x = c := by
  unfold insertPosition at h
  split at h
  · exact Or.inl h
  · unfold insertAt at h
    rw [List.mem_append, List.mem_cons] at h
    rcases h with h | h | h
    · exact Or.inl (List.mem_of_mem_take h)
    · exact Or.inr h
    · exact Or.inl (List.mem_of_mem_drop h)

theorem mem_step [Zero E] {path : List E} {op : Op E} {x : E} (h : x ∈ step path op) :
    x ∈ path ∨ x ∈ op.given := by
  cases op with
  | add c => simpa [step, addPoint, Op.given] using h
  | insert pos c =>
    rcases mem_insertPosition (show x ∈ insertPosition path pos c from h) with h | h
    · exact Or.inl h
    · exact Or.inr (by simp [Op.given, h])
  | insertMany pos cs =>
    change x ∈ insertMany path pos cs at h
    rcases Nat.lt_or_ge path.length pos with hp | hp
    · rw [insertMany_out cs path pos hp] at h; exact Or.inl h
    · rw [insertMany_eq cs path pos hp] at h
      simp only [List.mem_append] at h
      rcases h with (h | h) | h
      · exact Or.inl (List.mem_of_mem_take h)
      · exact Or.inr h
      · exact Or.inl (List.mem_of_mem_drop h)
  | insertTraj pos a =>
    cases a with
    | null => exact Or.inl h
    | self =>
      have key : ∀ (k : Nat) (l : List E), (∀ y ∈ l, y ∈ path) → k ≤ l.length →
          ∀ y ∈ insertSelfLoop pos k l, y ∈ path := by
        intro k
        induction k with
        | zero => intro l hl _; exact hl
        | succ k ih =>
          intro l hl hk
          have hg : getPoint l k ∈ path := by
            have := getPoint_lt (path := l) (i := k) (by omega)
            exact hl _ (List.mem_of_getElem? this)
          apply ih
          · intro y hy
            rcases mem_insertPosition hy with h | h
            · exact hl y h
            · rw [h]; exact hg
          · unfold insertPosition
            split
            · omega
            · simp [insertAt]; omega
      exact Or.inl (key _ path (fun _ h => h) (le_refl _) x h)
    | other o =>
      change x ∈ insertTrajectory path pos (.other o) at h
      rcases Nat.lt_or_ge path.length pos with hp | hp
      · rw [(C16_insert_trajectory path o pos).2 hp] at h; exact Or.inl h
      · change x ∈ insertTrajLoop o pos o.length path at h
        rw [insertTrajLoop_eq o pos _ path hp (le_refl _), List.take_length] at h
        simp only [List.mem_append] at h
        rcases h with (h | h) | h
        · exact Or.inl (List.mem_of_mem_take h)
        · exact Or.inr h
        · exact Or.inl (List.mem_of_mem_drop h)
  | erase pos =>
    change x ∈ erasePosition path pos at h
    unfold erasePosition eraseAt at h
    split at h
    · exact Or.inl h
    · rw [List.mem_append] at h
      rcases h with h | h
      · exact Or.inl (List.mem_of_mem_take h)
      · exact Or.inl (List.mem_of_mem_drop h)
  | remove s e =>
    change x ∈ (removePositions path s e).2 at h
    have hk : ∀ (k : Nat) (l : List E) (r : Nat), (∀ y ∈ l, y ∈ path) →
        ∀ y ∈ (removeLoop s k l r).2, y ∈ path := by
      intro k
      induction k with
      | zero => intro l r hl; exact hl
      | succ k ih =>
        intro l r hl
        rw [removeLoop]
        split
        · exact hl
        · apply ih
          intro y hy
          unfold eraseAt at hy
          rw [List.mem_append] at hy
          rcases hy with hy | hy
          · exact hl y (List.mem_of_mem_take hy)
          · exact hl y (List.mem_of_mem_drop hy)
    unfold removePositions at h
    split at h
    · exact Or.inl h
    · split at h
      · exact Or.inl h
      · exact Or.inl (hk _ path 0 (fun _ h => h) x h)
  | reverse => exact Or.inl (by simpa [step, reverse] using h)
  | reset => simp [step] at h
  | setRef pos c =>
    change x ∈ (setPointRef path pos c).getD path at h
    unfold setPointRef at h
    split at h
    · rcases List.mem_or_eq_of_mem_set h with h | h
      · exact Or.inl h
      · exact Or.inr (by simp [Op.given, h])
    · exact Or.inl h

/-- **C16.** After any history of edits every point of the trajectory is one that was handed in (no
call invents points, not even the zero vector `getPoint` returns for an empty path). -/
theorem C16_no_invented_points [Zero E] (ops : List (Op E)) (x : E) (h : x ∈ run ops) :
    ∃ op ∈ ops, x ∈ op.given := by
  have key : ∀ (ops : List (Op E)) (path : List E), x ∈ ops.foldl step path →
      x ∈ path ∨ ∃ op ∈ ops, x ∈ op.given := by
    intro ops
    induction ops with
    | nil => intro path h; exact Or.inl h
    | cons op ops ih =>
      intro path h
      rcases ih _ h with h | ⟨o, ho, hx⟩
      · rcases mem_step h with h | h
        · exact Or.inl h
        · exact Or.inr ⟨op, by simp, h⟩
      · exact Or.inr ⟨o, by simp [ho], hx⟩
  rcases key ops [] h with h | h
  · simp at h
  · exact h

example : Inserted ([10, 20, 30] : List ℤ) 1 [15, 16] [10, 15, 16, 20, 30] := by
  have := (C16_insert_many ([10, 20, 30] : List ℤ) 1 [15, 16]).1 (by decide)
  exact this

example : removePositions ([1, 2, 3, 4, 5] : List ℤ) 1 3 = (3, [1, 5]) := rfl

example : run ([.add 1, .add 2, .insert 1 7, .insertTraj 0 (.other [8, 9]), .reverse, .erase 0,
    .remove 0 1] : List (Op ℤ)) = [9, 8] := rfl

/-! ## C17: interpolation -/

section
variable [NormedAddCommGroup E] [NormedSpace ℝ E]

/-- **C17.** At `t = 0` (and below) the result is the first point with index 0, at `t = 1` (and above)
the last point with its index. -/
theorem C17_endpoints (path : List E) (t : ℝ) (a z : E) (ha : path.head? = some a)
    (hz : path.getLast? = some z) :
    (t ≤ 0 → interpolate path t = some (a, 0)) ∧
    (1 ≤ t → interpolate path t = some (z, (path.length : Int) - 1)) := by
  have hne : path.length ≠ 0 := by
    intro h; rw [List.length_eq_zero_iff.mp h] at ha; cases ha
  have h0 := getPoint_lt (path := path) (i := 0) (by omega)
  have h1 := getPoint_lt (path := path) (i := path.length - 1) (by omega)
  rw [← List.head?_eq_getElem?, ha] at h0
  rw [← List.getLast?_eq_getElem?, hz] at h1
  constructor
  · intro h
    have : clampT t = 0 := by
      unfold clampT
      rcases h.lt_or_eq with h | h
      · rw [if_pos (Or.inl h)]; simp [h]
      · rw [h]; simp
    unfold interpolate
    rw [this]
    dsimp only
    rw [if_neg hne, if_pos rfl, ← Option.some.inj h0]
  · intro h
    have : clampT t = 1 := by
      unfold clampT
      rcases h.lt_or_eq with h | h
      · rw [if_pos (Or.inr h)]
        dsimp only
        have hn : ¬ t < 0 := by linarith
        rw [if_neg hn, if_pos h]
      · rw [← h]; simp
    unfold interpolate
    rw [this]
    dsimp only
    rw [if_neg hne, if_neg one_ne_zero, if_pos rfl, ← Option.some.inj h1]

/-- **C17.** For `0 < t < 1` on a trajectory of positive length the result lies on the segment whose
index is reported, at exactly the fraction `t` of the total length. -/
theorem C17_fraction (path : List E) (t : ℝ) (h0 : 0 < t) (h1 : t < 1)
    (hL : 0 < polyLength dist path) :
    ∃ p, ∃ i : Nat, interpolate path t = some (p, (i : Int)) ∧ i + 1 < path.length ∧
      OnSegment path (t * polyLength dist path) i p := by
  obtain ⟨p, i, h, hs⟩ := interpolate_mid h0 h1 hL
  refine ⟨p, i, h, ?_, hs⟩
  obtain ⟨a, b, _, hb, _⟩ := hs
  by_contra hc
  rw [List.getElem?_eq_none (by omega)] at hb; cases hb

/-- A trajectory of length zero has all its points in one place; for `0 < t < 1` the code reports the
index `-1` (the unsigned index wraps around), so the reported index is no index of a segment.
(Violation of C17 for trajectories of length zero.) -/
theorem C17_zero_length_index (path : List E) (t : ℝ) (h0 : 0 < t) (h1 : t < 1) (a : E)
    (ha : path.head? = some a) (hL : polyLength dist path = 0) :
    interpolate path t = some (a, -1) := by
  have hne : path.length ≠ 0 := by
    intro h; rw [List.length_eq_zero_iff.mp h] at ha; cases ha
  have hp0 := getPoint_lt (path := path) (i := 0) (by omega)
  rw [← List.head?_eq_getElem?, ha] at hp0
  unfold interpolate
  rw [clampT_of_mem h0.le h1.le]
  dsimp only
  rw [if_neg hne, if_neg h0.ne', if_neg h1.ne, getLength_eq, hL, segSearch, if_neg (by simp)]
  simp [← Option.some.inj hp0]

/-- **C17.** For every `t` the result of interpolating a trajectory with at least two points lies on
the path at arc length `t` times the total length (`t` clamped to `[0, 1]`). -/
theorem C17_on_path (path : List E) (t : ℝ) (hn : 2 ≤ path.length) :
    ∃ p i, interpolate path t = some (p, i) ∧
      OnPath path (max 0 (min 1 t) * polyLength dist path) p := by
  have hnn := polyLength_nonneg dist (fun a b : E => dist_nonneg) path
  have ha : path.head? = some (path[0]'(by omega)) := by
    rw [List.head?_eq_getElem?]; exact List.getElem?_eq_getElem _
  have hz : path.getLast? = some (path[path.length - 1]'(by omega)) := by
    rw [List.getLast?_eq_getElem?]; exact List.getElem?_eq_getElem _
  have hA : path[0]? = some (path[0]'(by omega)) := List.getElem?_eq_getElem _
  have hB : path[0 + 1]? = some (path[1]'(by omega)) := List.getElem?_eq_getElem _
  have first : OnPath path 0 (path[0]'(by omega)) := by
    refine ⟨0, _, _, hA, hB, 0, le_refl _, by norm_num, by simp, ?_⟩
    have := arc_zero path
    unfold arc at this
    rw [this]; simp
  rcases le_or_gt t 0 with h0 | h0
  · refine ⟨_, _, (C17_endpoints path t _ _ ha hz).1 h0, ?_⟩
    rw [max_eq_left (by simp [h0]), zero_mul]; exact first
  rcases le_or_gt 1 t with h1 | h1
  · refine ⟨_, _, (C17_endpoints path t _ _ ha hz).2 h1, ?_⟩
    rw [min_eq_left h1, max_eq_right (by norm_num), one_mul]
    have hC : path[path.length - 2]? = some (path[path.length - 2]'(by omega)) :=
      List.getElem?_eq_getElem _
    have hD : path[path.length - 2 + 1]? = some (path[path.length - 1]'(by omega)) := by
      rw [← List.getElem?_eq_getElem]; congr 1; omega
    refine ⟨path.length - 2, _, _, hC, hD, 1, by norm_num, le_refl _, by simp, ?_⟩
    have := arc_succ hC hD
    rw [arc_last (by omega)] at this
    unfold arc at this
    exact this.symm
  rw [min_eq_right h1.le, max_eq_right h0.le]
  rcases hnn.lt_or_eq with hL | hL
  · obtain ⟨p, i, h, hs⟩ := interpolate_mid h0 h1 hL
    exact ⟨p, i, h, i, hs⟩
  · refine ⟨_, _, C17_zero_length_index path t h0 h1 _ ha hL.symm, ?_⟩
    rw [← hL, mul_zero]; exact first

/-- The specification determines the point: there is only one point at a given arc length. -/
theorem onPath_unique {path : List E} {s : ℝ} {p q : E} (hp : OnPath path s p)
    (hq : OnPath path s q) : p = q := by
  obtain ⟨i, hi⟩ := hp
  obtain ⟨j, hj⟩ := hq
  have := onSegment_lip hi hj
  rw [sub_self, abs_zero] at this
  exact dist_le_zero.mp this

/-- **C17.** Interpolation moves with bounded speed: two parameters in `[0, 1]` give positions whose
distance is at most their difference times the total length; in particular it is continuous. -/
theorem C17_lipschitz (path : List E) (s t : ℝ) (hs0 : 0 ≤ s) (hs1 : s ≤ 1) (ht0 : 0 ≤ t)
    (ht1 : t ≤ 1) (p q : E) (i j : Int) (hp : interpolate path s = some (p, i))
    (hq : interpolate path t = some (q, j)) :
    dist p q ≤ |s - t| * polyLength dist path := by
  have hnn := polyLength_nonneg dist (fun a b : E => dist_nonneg) path
  rcases Nat.lt_or_ge path.length 2 with hn | hn
  · match path, hn with
    | [], _ => simp [interpolate] at hp
    | [a], _ =>
      have all : ∀ u : ℝ, 0 ≤ u → u ≤ 1 → ∃ k, interpolate [a] u = some (a, k) := by
        intro u hu0 hu1
        rcases hu0.lt_or_eq with h | h
        · rcases hu1.lt_or_eq with h' | h'
          · exact ⟨_, C17_zero_length_index [a] u h h' a rfl rfl⟩
          · exact ⟨_, (C17_endpoints [a] u a a rfl rfl).2 h'.ge⟩
        · exact ⟨_, (C17_endpoints [a] u a a rfl rfl).1 h.ge⟩
      obtain ⟨k, hk⟩ := all s hs0 hs1
      obtain ⟨l, hl⟩ := all t ht0 ht1
      rw [hk] at hp; rw [hl] at hq
      cases hp; cases hq
      simp [polyLength]
  · obtain ⟨p', i', hp', k, hk⟩ := C17_on_path path s hn
    obtain ⟨q', j', hq', l, hl⟩ := C17_on_path path t hn
    rw [hp'] at hp; rw [hq'] at hq
    cases hp; cases hq
    rw [min_eq_right hs1, max_eq_right hs0] at hk
    rw [min_eq_right ht1, max_eq_right ht0] at hl
    have := onSegment_lip hk hl
    rwa [← sub_mul, abs_mul, abs_of_nonneg hnn] at this

/-- **C17.** Walking the reversed trajectory is walking the trajectory backwards. -/
theorem C17_reverse (path : List E) (t : ℝ) (h0 : 0 ≤ t) (h1 : t ≤ 1) (p q : E) (i j : Int)
    (hn : 2 ≤ path.length) (hp : interpolate (reverse path) t = some (p, i))
    (hq : interpolate path (1 - t) = some (q, j)) : p = q := by
  obtain ⟨p', i', hp', k, hk⟩ := C17_on_path (reverse path) t (by simpa [reverse] using hn)
  obtain ⟨q', j', hq', l, hl⟩ := C17_on_path path (1 - t) hn
  rw [hp'] at hp; rw [hq'] at hq
  cases hp; cases hq
  rw [min_eq_right h1, max_eq_right h0] at hk
  rw [min_eq_right (by linarith), max_eq_right (by linarith)] at hl
  have hr := onSegment_reverse hl
  have hL : polyLength dist (reverse path) = polyLength dist path := polyLength_reverse _ dist_comm _
  rw [hL] at hk
  rw [show polyLength dist path - (1 - t) * polyLength dist path = t * polyLength dist path by ring]
    at hr
  exact onPath_unique ⟨k, hk⟩ ⟨_, hr⟩

end

/-- A path with two segments: half of the total length is one unit into the second segment. -/
example : polyLength dist ([0, 1, 4] : List ℝ) = 4 ∧ OnSegment ([0, 1, 4] : List ℝ) (1 / 2 * 4) 1 2 := by
  have h : polyLength dist ([0, 1, 4] : List ℝ) = 4 := by
    simp [polyLength, Real.dist_eq]; norm_num
  refine ⟨h, 1, 4, rfl, rfl, 1 / 3, by norm_num, by norm_num, ?_, ?_⟩
  · simp; norm_num
  · simp [polyLength, Real.dist_eq]; norm_num

example : ∃ i, interpolate ([0, 1, 4] : List ℝ) (1 / 2) = some (2, i) := by
  have h : polyLength dist ([0, 1, 4] : List ℝ) = 4 := by
    simp [polyLength, Real.dist_eq]; norm_num
  have hon : OnPath ([0, 1, 4] : List ℝ) (1 / 2 * 4) 2 := by
    refine ⟨1, 1, 4, rfl, rfl, 1 / 3, by norm_num, by norm_num, ?_, ?_⟩
    · simp; norm_num
    · simp [polyLength, Real.dist_eq]; norm_num
  obtain ⟨p, i, hp, _, hs⟩ := C17_fraction ([0, 1, 4] : List ℝ) (1 / 2) (by norm_num) (by norm_num)
    (by rw [h]; norm_num)
  rw [h] at hs
  rw [hp, onPath_unique ⟨i, hs⟩ hon]
  exact ⟨_, rfl⟩

/-! ## C18: length -/

section
variable [NormedAddCommGroup E]

/-- **C18.** `getLength` is the sum of the distances of consecutive points. -/
theorem C18_trajectory_length (path : List E) : getLength path = polyLength dist path :=
  getLength_eq path

/-- **C18.** Trajectory length: additive, invariant under reversal, at least the straight-line
distance; inserting a point never makes a trajectory shorter, removing points never makes it longer. -/
theorem C18_trajectory_laws (a b mid : List E) (x y z : E) :
    getLength (a ++ x :: b) = getLength (a ++ [x]) + getLength (x :: b) ∧
    getLength (reverse a) = getLength a ∧
    dist x z ≤ getLength (x :: a ++ [z]) ∧
    getLength (a ++ b) ≤ getLength (a ++ y :: b) ∧
    getLength (a ++ b) ≤ getLength (a ++ mid ++ b) := by
  have ins : ∀ (a b : List E) (y : E), getLength (a ++ b) ≤ getLength (a ++ y :: b) := by
    intro a b y
    simp only [getLength_eq]
    induction a with
    | nil =>
      cases b with
      | nil => simp [polyLength]
      | cons c b =>
        simp only [List.nil_append, polyLength_cons_cons]
        linarith [dist_nonneg (x := y) (y := c)]
    | cons u a ih =>
      cases a with
      | nil =>
        cases b with
        | nil => simp [polyLength]
        | cons c b =>
          simp only [List.cons_append, List.nil_append, polyLength_cons_cons]
          linarith [dist_triangle u y c]
      | cons v a =>
        simp only [List.cons_append, polyLength_cons_cons] at ih ⊢
        linarith
  refine ⟨?_, ?_, ?_, ins a b y, ?_⟩
  · simp only [getLength_eq]; exact polyLength_append dist x b a
  · simp only [getLength_eq]; exact polyLength_reverse dist dist_comm a
  · rw [getLength_eq]; exact dist_le_polyLength dist dist_self dist_triangle a x z
  · induction mid with
    | nil => simp
    | cons m mid ih =>
      refine ih.trans ?_
      have := ins a (mid ++ b) m
      simpa using this

end

/-- **C18.** The same laws for the C-space length of a path, for every C-space (weights, borderless
dimensions), with and without weights. -/
theorem C18_cspace_laws {n : Nat} (S : Space n) (w : Bool) (a b mid : List (Config n))
    (x z : Config n) :
    cspaceLength S a w = polyLength (fun p q => S.calcDist p q w) a ∧
    cspaceLength S (a ++ x :: b) w = cspaceLength S (a ++ [x]) w + cspaceLength S (x :: b) w ∧
    cspaceLength S (reverse a) w = cspaceLength S a w ∧
    S.calcDist x z w ≤ cspaceLength S (x :: a ++ [z]) w ∧
    cspaceLength S (a ++ b) w ≤ cspaceLength S (a ++ mid ++ b) w := by
  have h0 : ∀ a, S.calcDist a a w = 0 := fun a => (C38_dist_pseudo_metric S w a a a).2.1
  have hs : ∀ a b, S.calcDist a b w = S.calcDist b a w :=
    fun a b => (C38_dist_pseudo_metric S w a b b).2.2.1
  have ht : ∀ a b c, S.calcDist a c w ≤ S.calcDist a b w + S.calcDist b c w :=
    fun a b c => (C38_dist_pseudo_metric S w a b c).2.2.2
  have hn : ∀ a b, 0 ≤ S.calcDist a b w := fun a b => (C38_dist_pseudo_metric S w a b b).1
  have ins : ∀ (a b : List (Config n)) (y : Config n),
      cspaceLength S (a ++ b) w ≤ cspaceLength S (a ++ y :: b) w := by
    intro a b y
    simp only [cspaceLength_eq]
    induction a with
    | nil =>
      cases b with
      | nil => simp [polyLength]
      | cons c b =>
        simp only [List.nil_append, polyLength_cons_cons]
        linarith [hn y c]
    | cons u a ih =>
      cases a with
      | nil =>
        cases b with
        | nil => simpa [polyLength] using hn u y
        | cons c b =>
          simp only [List.cons_append, List.nil_append, polyLength_cons_cons]
          linarith [ht u y c]
      | cons v a =>
        simp only [List.cons_append, polyLength_cons_cons] at ih ⊢
        linarith
  refine ⟨cspaceLength_eq S a w, ?_, ?_, ?_, ?_⟩
  · simp only [cspaceLength_eq]; exact polyLength_append _ x b a
  · simp only [cspaceLength_eq]; exact polyLength_reverse _ hs a
  · rw [cspaceLength_eq]; exact dist_le_polyLength _ h0 ht a x z
  · induction mid with
    | nil => simp
    | cons m mid ih =>
      refine ih.trans ?_
      have := ins a (mid ++ b) m
      simpa using this

/-- **C18.** The length between two indices of a path is the length of that part of the path; it is
additive over adjacent index ranges; wrong indices give zero. -/
theorem C18_cspace_range {n : Nat} (S : Space n) (w : Bool) (path : List (Config n)) (i j k : Nat) :
    (i ≤ j → j < path.length →
      cspaceRangeLength S path i j w =
        polyLength (fun p q => S.calcDist p q w) ((path.drop i).take (j + 1 - i))) ∧
    (i ≤ j → j ≤ k → k < path.length →
      cspaceRangeLength S path i k w =
        cspaceRangeLength S path i j w + cspaceRangeLength S path j k w) ∧
    (¬ (i ≤ j ∧ j < path.length) → cspaceRangeLength S path i j w = 0) := by
  refine ⟨fun h1 h2 => cspaceRangeLength_eq S path i j w h1 h2, fun h1 h2 h3 => ?_, fun h => ?_⟩
  · rw [cspaceRangeLength_eq _ _ _ _ _ (by omega) h3, cspaceRangeLength_eq _ _ _ _ _ h1 (by omega),
      cspaceRangeLength_eq _ _ _ _ _ h2 h3]
    have hj : j < path.length := by omega
    have e1 : (path.drop i).take (k + 1 - i) =
        (path.drop i).take (j - i) ++ path[j] :: (path.drop (j + 1)).take (k - j) := by
      have : k + 1 - i = (j - i) + (1 + (k - j)) := by omega
      rw [this, List.take_add, List.drop_drop]
      congr 1
      rw [show i + (j - i) = j by omega, List.drop_eq_getElem_cons hj, Nat.add_comm 1,
        List.take_succ_cons]
    have e2 : (path.drop i).take (j + 1 - i) = (path.drop i).take (j - i) ++ [path[j]] := by
      have : j + 1 - i = (j - i) + 1 := by omega
      rw [this, List.take_add_one, List.getElem?_drop]
      rw [show i + (j - i) = j by omega, List.getElem?_eq_getElem hj]
      rfl
    have e3 : (path.drop j).take (k + 1 - j) = path[j] :: (path.drop (j + 1)).take (k - j) := by
      rw [List.drop_eq_getElem_cons hj, show k + 1 - j = (k - j) + 1 by omega, List.take_succ_cons]
    rw [e1, e2, e3, polyLength_append]
  · unfold cspaceRangeLength; rw [if_pos (by omega)]

example : getLength ([0, 3, 1] : List ℝ) = 5 := by
  rw [getLength_eq]; simp [polyLength, Real.dist_eq]; norm_num

end Simox.Trajectory
