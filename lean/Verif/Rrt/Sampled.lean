import Verif.Rrt.Spec
import Verif.CSpace.Props

/-!
# The C-space of the planners: `CSpaceSampled`

`Env` instantiated with the model of `CSpaceSampled` from `Verif.CSpace.Model`. The loops of that model
are bounded by fuel; here their result is the value they stop with.
-/

namespace Simox.Rrt

open Simox.CSpace Spec Classical

/-- The value a fuel-bounded computation settles on (`d` if it never does). -/
noncomputable def settled {α : Type} (f : Nat → Option α) (d : α) : α :=
  if h : ∃ x, ∃ N, ∀ n, N ≤ n → f n = some x then h.choose else d

theorem settled_eq {α : Type} {f : Nat → Option α} {d x : α} {N : Nat}
    (h : ∀ n, N ≤ n → f n = some x) : settled f d = x := by
  have hex : ∃ x, ∃ N, ∀ n, N ≤ n → f n = some x := ⟨x, N, h⟩
  unfold settled
  rw [dif_pos hex]
  obtain ⟨M, hM⟩ := hex.choose_spec
  have h1 := hM (max N M) (le_max_right _ _)
  rw [h (max N M) (le_max_left _ _)] at h1
  exact (Option.some.inj h1).symm

/-- Parameters of a sampled C-space: metric, sampling sizes, validity of configurations, and the step
size of the planner. -/
structure Setup (n : Nat) where
  space : Space n
  ss : ℝ
  dcd : ℝ
  step : ℝ
  free : Config n → Bool
  cons : Config n → Bool

variable {n : Nat}

/-- `isConfigValid(·, true, true, true)`, CSpace.cpp 489-512. -/
def Setup.validB (P : Setup n) (c : Config n) : Prop :=
  isConfigValid (P.space.isInBoundary c) (P.free c = true) (P.cons c = true) true true true

/-- `isConfigValid(·, false, true, true)`. -/
def Setup.validN (P : Setup n) (c : Config n) : Prop :=
  isConfigValid (P.space.isInBoundary c) (P.free c = true) (P.cons c = true) false true true

/-- What the planners call, computed by a `CSpaceSampled`; `buf` is the initial content of the scratch
buffer of `isPathValid`. -/
noncomputable def Setup.env (P : Setup n) (buf : Nat → Config n) : Env (Config n) ℝ where
  free := P.free
  inBd c := decide (P.space.isInBoundary c)
  d2 a b := P.space.calcDist2 a b true
  far a b := decide (P.space.calcDist a b false > P.step)
  toward a b := P.space.interpolate a b (P.step / P.space.calcDist a b false)
  pathValid a b := P.space.geo.isPathValid P.validN P.dcd (fun _ => false) a b buf
  path a b := settled (P.space.geo.createPath P.ss a b) [a]
  pathUntil a b :=
    let r := settled (P.space.geo.createPathUntilInvalid P.validB P.validN P.dcd P.ss a b) ⟨[a], 0⟩
    (r.points, decide (r.added = 1))

/-- Close enough for the local planner: equal, or nearer than `1e-6`. -/
def Setup.near (P : Setup n) (e v : Config n) : Prop := e = v ∨ P.space.calcDist e v false < 1e-6

/-- Sensible parameters. -/
structure Setup.OK (P : Setup n) : Prop where
  noTrans : ∀ i, P.space.borderless i = true → P.space.translational i = false
  ss : 0 < P.ss
  dcd : 0 < P.dcd
  step : 0 ≤ P.step

theorem Setup.validB_validN (P : Setup n) (c : Config n) (h : P.validB c) : P.validN c := by
  unfold Setup.validB isConfigValid at h
  unfold Setup.validN isConfigValid
  simp at h ⊢
  exact ⟨h.2.1, h.2.2⟩

/-- A `CSpaceSampled` meets what is required of a C-space. -/
theorem Setup.envOK (P : Setup n) (ok : P.OK) (buf : Nat → Config n) : EnvOK (P.env buf) P.near := by
  have hpath : ∀ u v, (P.space.calcDist u v false = 0 ∧ (P.env buf).path u v = [u]) ∨
      ∃ p e, (e = v ∨ P.space.calcDist e v false < 1e-6) ∧ (P.env buf).path u v = u :: p ++ [e] := by
    intro u v
    by_cases hd : P.space.calcDist u v false = 0
    · refine Or.inl ⟨hd, settled_eq (N := 0) fun k _ => ?_⟩
      have : P.space.geo.dist u v = 0 := hd
      simp [Geo.createPath, this]
    · obtain ⟨p, e, _, h2, N, hN⟩ := C21_path_partial P.space ok.noTrans ok.ss u v hd
      exact Or.inr ⟨p, e, h2, settled_eq hN⟩
  have huntil : ∀ u v, (P.env buf).pathUntil u v = ([u], true) ∨
      ∃ x, ((P.env buf).pathUntil u v).1 = u :: x ∧
        (((P.env buf).pathUntil u v).2 = true → x.getLast? = some v) := by
    intro u v
    by_cases hd : P.space.calcDist u v false = 0
    · left
      have : settled (P.space.geo.createPathUntilInvalid P.validB P.validN P.dcd P.ss u v) ⟨[u], 0⟩ =
          { points := [u], added := 1 } :=
        settled_eq (N := 0) fun k _ => C39_zero_distance_unchecked _ _ _ _ _ _ _ hd k
      simp [Setup.env, this]
    · obtain ⟨res, x, way, N, hN, h1, _, _, _, h5, _⟩ := C39_until_invalid P.space ok.noTrans P.validB
        P.validN P.validB_validN ok.dcd P.ss u v hd
      right
      refine ⟨x, ?_, ?_⟩
      · simp only [Setup.env, settled_eq hN]; exact h1
      · simp only [Setup.env, settled_eq hN]; intro h; exact h5 (by simpa using h)
  refine ⟨?_, ?_, ?_, ?_⟩
  · intro u v
    rcases hpath u v with ⟨_, h⟩ | ⟨p, e, _, h⟩ <;> rw [h] <;> rfl
  · intro u v e hl he
    rcases hpath u v with ⟨_, h⟩ | ⟨p, e', h1, h⟩
    · rw [h] at hl; simp at hl
    · rw [h] at he
      rw [List.getLast?_concat] at he
      obtain rfl := Option.some.inj he; exact h1
  · intro u v
    rcases huntil u v with h | ⟨x, h, _⟩ <;> rw [h] <;> rfl
  · intro u v e h1 h2 h3
    rcases huntil u v with h | ⟨x, h, h'⟩
    · rw [h] at h2; simp at h2
    · have hx := h' h1
      rw [h] at h3
      left
      cases x with
      | nil => simp at hx
      | cons a x =>
        rw [List.getLast?_cons_cons] at h3
        rw [hx] at h3
        exact (Option.some.inj h3).symm

theorem Setup.path_self (P : Setup n) (ok : P.OK) (buf : Nat → Config n) (a : Config n) :
    (P.env buf).path a a = [a] ∧ ((P.env buf).pathUntil a a).1 = [a] ∧
      (P.env buf).far a a = false := by
  have hd : P.space.geo.dist a a = 0 := (geoOK P.space ok.noTrans).self a
  have hd' : P.space.calcDist a a false = 0 := hd
  refine ⟨settled_eq (N := 0) fun k _ => by simp [Geo.createPath, hd], ?_, ?_⟩
  · have : settled (P.space.geo.createPathUntilInvalid P.validB P.validN P.dcd P.ss a a) ⟨[a], 0⟩ =
          { points := [a], added := 1 } :=
        settled_eq (N := 0) fun k _ => C39_zero_distance_unchecked _ _ _ _ _ _ _ hd' k
    simp [Setup.env, this]
  · simp [Setup.env, hd', ok.step]

theorem Setup.d2_self (P : Setup n) (buf : Nat → Config n) (a q : Config n) :
    (P.env buf).d2 a a ≤ (P.env buf).d2 a q := by
  simp only [Setup.env]
  rw [calcDist2_eq, calcDist2_eq]
  apply Finset.sum_le_sum
  intro i _
  have : P.space.distDim a a i = 0 := by
    unfold Space.distDim; split <;> simp [angleDelta_self]
  rw [this]
  simp
  positivity

end Simox.Rrt
