import Verif.Shortcut.Spec
import Verif.Trajectory.Lemmas

/-!
# Lemmas about shortcutting
-/

namespace Simox.Shortcut

open Simox.Trajectory Simox.Trajectory.Spec Simox.Rrt.Spec Spec

set_option linter.unusedSectionVars false

variable {Q : Type} [Zero Q]

theorem eraseDown_eq (s : Nat) : ∀ (k : Nat) (p : List Q), s + k + 1 ≤ p.length →
    eraseDown s k p = p.take (s + 1) ++ p.drop (s + 1 + k) := by
  intro k
  induction k with
  | zero => intro p h; simp [eraseDown]
  | succ k ih =>
    intro p h
    have hl : (p.take (s + k + 1)).length = s + k + 1 := by simp; omega
    rw [eraseDown, erasePosition, if_neg (by omega), ih _ (by simp [eraseAt]; omega), eraseAt]
    rw [List.take_append_of_le_length (by omega), List.take_take, List.drop_append, hl,
      List.drop_eq_nil_of_le (by omega)]
    rw [show min (s + 1) (s + k + 1) = s + 1 by omega, List.nil_append, List.drop_drop]
    congr 2
    omega

theorem take_snoc (a l : List Q) (x : Q) : (a ++ x :: l).take (a.length + 1) = a ++ [x] := by
  rw [show a ++ x :: l = (a ++ [x]) ++ l by simp, List.take_append_of_le_length (by simp)]
  exact List.take_of_length_le (by simp)

theorem drop_snoc (a l : List Q) (x : Q) : (a ++ x :: l).drop (a.length + 1) = l := by
  rw [show a ++ x :: l = (a ++ [x]) ++ l by simp]
  exact List.drop_left' (by simp)

/-- The list around two positions. -/
theorem split_at {p : List Q} {s e : Nat} (hse : s < e) (he : e < p.length) :
    ∃ a mid b u v, p = a ++ u :: (mid ++ v :: b) ∧ a.length = s ∧ mid.length = e - s - 1 ∧
      getPoint p s = u ∧ getPoint p e = v := by
  have hs : s < p.length := by omega
  refine ⟨p.take s, (p.drop (s + 1)).take (e - s - 1), p.drop (e + 1), p[s], p[e], ?_, by simp; omega,
    by simp; omega, ?_, ?_⟩
  · have h1 : p = p.take s ++ p.drop s := (List.take_append_drop s p).symm
    have h2 : p.drop s = p[s] :: p.drop (s + 1) := List.drop_eq_getElem_cons hs
    have h3 : p.drop (s + 1) = (p.drop (s + 1)).take (e - s - 1) ++ p.drop e := by
      conv_lhs => rw [← List.take_append_drop (e - s - 1) (p.drop (s + 1))]
      rw [List.drop_drop]; congr 2; omega
    have h4 : p.drop e = p[e] :: p.drop (e + 1) := List.drop_eq_getElem_cons he
    rw [← h4, ← h3, ← h2, ← h1]
  · have := getPoint_lt hs
    rw [List.getElem?_eq_getElem hs] at this
    exact (Option.some.inj this).symm
  · have := getPoint_lt he
    rw [List.getElem?_eq_getElem he] at this
    exact (Option.some.inj this).symm

theorem erase_ends (q : List Q) (h : q.length > 2) :
    erasePosition (erasePosition q (q.length - 1)) 0 = innerPoints q := by
  have h1 : erasePosition q (q.length - 1) = q.dropLast := by
    unfold erasePosition
    rw [if_neg (by omega), eraseAt, List.drop_eq_nil_of_le (by omega), List.append_nil,
      List.dropLast_eq_take]
  rw [h1]
  unfold erasePosition innerPoints
  rw [if_neg (by simp; omega), eraseAt]
  simp

theorem inner_short (q : List Q) (h : ¬ q.length > 2) : innerPoints q = [] := by
  unfold innerPoints
  match q, h with
  | [], _ => rfl
  | [_], _ => rfl
  | [_, _], _ => rfl
  | _ :: _ :: _ :: _, h => simp at h

/-- What a shortcut does to the path. -/
theorem doShortcut_eq (env : Env Q) (a mid b : List Q) (u v : Q) :
    (doShortcut env (a ++ u :: (mid ++ v :: b)) a.length (a.length + mid.length + 1 : Nat)).2 =
      a ++ u :: (innerPoints (env.path u v) ++ v :: b) := by
  have hE : eraseDown a.length (((a.length + mid.length + 1 : Nat) : Int) - 1 - a.length).toNat
      (a ++ u :: (mid ++ v :: b)) = a ++ u :: v :: b := by
    rw [show ((((a.length + mid.length + 1 : Nat) : Int) - 1 - a.length).toNat) = mid.length by
      omega, eraseDown_eq _ _ _ (by simp)]
    have e1 : (a ++ u :: (mid ++ v :: b)).take (a.length + 1) = a ++ [u] := take_snoc _ _ _
    have e2 : (a ++ u :: (mid ++ v :: b)).drop (a.length + 1 + mid.length) = v :: b := by
      rw [List.drop_append, List.drop_eq_nil_of_le (by omega)]
      rw [show a.length + 1 + mid.length - a.length = mid.length + 1 by omega]
      simp
    rw [e1, e2]; simp
  have hu : getPoint (a ++ u :: v :: b) a.length = u := by
    have := getPoint_lt (path := a ++ u :: v :: b) (i := a.length) (by simp)
    rw [List.getElem?_append_right (by omega)] at this
    simpa using this.symm
  have hv : getPoint (a ++ u :: v :: b) (a.length + 1) = v := by
    have := getPoint_lt (path := a ++ u :: v :: b) (i := a.length + 1) (by simp)
    rw [List.getElem?_append_right (by omega)] at this
    simpa using this.symm
  unfold doShortcut
  rw [if_neg (by
    simp only [List.length_append, List.length_cons]
    push_cast
    omega)]
  dsimp only
  rw [Int.toNat_natCast, hE, hu, hv]
  split
  · next h =>
    dsimp only
    rw [erase_ends _ h]
    change insertTrajLoop _ _ _ _ = _
    rw [insertTrajLoop_eq _ _ _ _ (by simp) (le_refl _), List.take_length,
      take_snoc, drop_snoc]
    simp
  · next h =>
    dsimp only
    rw [inner_short _ h]; rfl

/-! ## What is kept -/

theorem consecutive_append {l1 l2 : List Q} {x u v : Q} :
    Consecutive (l1 ++ x :: l2) u v ↔ Consecutive (l1 ++ [x]) u v ∨ Consecutive (x :: l2) u v := by
  constructor
  · rintro ⟨m1, m2, h⟩
    rcases List.append_eq_append_iff.mp h with ⟨c, h1, h2⟩ | ⟨c, h1, h2⟩
    · right
      exact ⟨c, m2, h2⟩
    · cases c with
      | nil =>
        right
        simp at h2
        exact ⟨[], m2, by simp [← h2.1, ← h2.2]⟩
      | cons c0 c =>
        simp at h2
        obtain ⟨rfl, h2⟩ := h2
        cases c with
        | nil =>
          simp at h2
          left
          exact ⟨m1, [], by rw [h1, ← h2.1]; simp⟩
        | cons c1 c =>
          simp at h2
          left
          exact ⟨m1, c ++ [x], by rw [h1, ← h2.1]; simp⟩
  · rintro (⟨m1, m2, h⟩ | ⟨m1, m2, h⟩)
    · exact ⟨m1, m2 ++ l2, by
        have : l1 ++ x :: l2 = (l1 ++ [x]) ++ l2 := by simp
        rw [this, h]; simp⟩
    · exact ⟨l1 ++ m1, m2, by rw [h]; simp⟩

/-- Facts kept by replacing the part between two points by a local path for which the check said yes. -/
structure Kept (env : Env Q) (orig new : List Q) : Prop where
  ends : SameEnds orig new
  seg : ∀ u v, Consecutive new u v → SegmentOK env orig u v

theorem Kept.refl (env : Env Q) (p : List Q) : Kept env p p :=
  ⟨⟨rfl, rfl⟩, fun _ _ h => Or.inl h⟩

theorem Kept.cut {env : Env Q} {orig : List Q} {a mid b : List Q} {u v : Q}
    (h : Kept env orig (a ++ u :: (mid ++ v :: b))) (hv : env.pathValid u v = true) :
    Kept env orig (a ++ u :: (innerPoints (env.path u v) ++ v :: b)) := by
  constructor
  · constructor
    · rw [← h.ends.1]; cases a <;> rfl
    · rw [← h.ends.2]
      have e : ∀ m : List Q, (a ++ u :: (m ++ v :: b)).getLast? = (v :: b).getLast? := by
        intro m
        rw [show a ++ u :: (m ++ v :: b) = (a ++ u :: m) ++ v :: b by simp, List.getLast?_append]
        have : (v :: b).getLast?.isSome := by simp
        obtain ⟨x, hx⟩ := Option.isSome_iff_exists.mp this
        rw [hx]; rfl
      rw [e, e]
  · intro x y hxy
    rw [consecutive_append] at hxy
    rcases hxy with hxy | hxy
    · exact h.seg x y (consecutive_append.mpr (Or.inl hxy))
    · rw [show u :: (innerPoints (env.path u v) ++ v :: b) = (u :: innerPoints (env.path u v)) ++ v :: b by
        simp, consecutive_append] at hxy
      rcases hxy with hxy | hxy
      · exact Or.inr ⟨u, v, hv, hxy⟩
      · apply h.seg x y
        rw [show a ++ u :: (mid ++ v :: b) = (a ++ u :: mid) ++ v :: b by simp]
        exact consecutive_append.mpr (Or.inr hxy)

/-- Replacing by a straight path does not make the path longer. -/
theorem length_cut {env : Env Q} {d : Q → Q → ℝ} (hS : Straight env d) (h0 : ∀ a, d a a = 0)
    (ht : ∀ a b c, d a c ≤ d a b + d b c) (a mid b : List Q) (u v : Q) :
    polyLength d (a ++ u :: (innerPoints (env.path u v) ++ v :: b)) ≤
      polyLength d (a ++ u :: (mid ++ v :: b)) := by
  have e : ∀ m : List Q, polyLength d (a ++ u :: (m ++ v :: b)) =
      polyLength d (a ++ [u]) + polyLength d (u :: m ++ [v]) + polyLength d (v :: b) := by
    intro m
    rw [polyLength_append, show u :: (m ++ v :: b) = (u :: m) ++ v :: b by simp,
      polyLength_append d v b (u :: m)]
    ring
  rw [e, e, hS u v]
  have := dist_le_polyLength d h0 ht mid u v
  linarith

/-! ## One round -/

theorem selectCandidates_spec {p : List Q} {maxDist : Int} {r1 r2 : Nat} {s e : Int}
    (h : selectCandidates p maxDist r1 r2 = some (s, e)) :
    0 ≤ s ∧ s + 2 ≤ e ∧ e < p.length := by
  unfold selectCandidates at h
  dsimp only at h
  by_cases h1 : p.length ≤ 2
  · rw [if_pos h1] at h; cases h
  rw [if_neg h1] at h
  revert h
  generalize ((r1 % (p.length - 2) : Nat) : Int) = S
  generalize (if (p.length : Int) - 2 - S > if maxDist < 2 then 2 else maxDist then
    if maxDist < 2 then 2 else maxDist else (p.length : Int) - 2 - S) = R
  intro h
  by_cases h2 : R ≤ 0
  · rw [if_pos h2] at h; cases h
  rw [if_neg h2] at h
  revert h
  generalize ((r2 % R.toNat : Nat) : Int) = D
  intro h
  split at h
  · cases h
  split at h
  · cases h
  split at h
  · cases h
  split at h
  · cases h
  simp only [Option.some.injEq, Prod.mk.injEq] at h
  omega

theorem validShortcut_pathValid {env : Env Q} {p : List Q} {s e : Int}
    (h : validShortcut env p s e = true) :
    env.pathValid (getPoint p s.toNat) (getPoint p e.toNat) = true := by
  unfold validShortcut at h
  dsimp only at h
  split at h
  · cases h
  · exact h

/-- One round either leaves the path alone or replaces the part between two of its points, at least two
positions apart, whose connection was checked. -/
theorem tryRandomShortcut_spec (env : Env Q) (p : List Q) (maxDist : Int) (r1 r2 : Nat) :
    (tryRandomShortcut env p maxDist r1 r2).2 = p ∨
    ∃ a mid b u v, p = a ++ u :: (mid ++ v :: b) ∧ mid ≠ [] ∧ env.pathValid u v = true ∧
      env.norm u v < polyLength env.dist (u :: mid ++ [v]) * 0.99 ∧
      (tryRandomShortcut env p maxDist r1 r2).2 = a ++ u :: (innerPoints (env.path u v) ++ v :: b) := by
  unfold tryRandomShortcut
  cases hc : selectCandidates p maxDist r1 r2 with
  | none => exact Or.inl rfl
  | some se =>
    obtain ⟨s, e⟩ := se
    obtain ⟨h1, h2, h3⟩ := selectCandidates_spec hc
    dsimp only
    cases hv : validShortcut env p s e with
    | false => exact Or.inl rfl
    | true =>
      right
      obtain ⟨s, rfl⟩ := Int.eq_ofNat_of_zero_le h1
      obtain ⟨e, rfl⟩ := Int.eq_ofNat_of_zero_le (show 0 ≤ e by omega)
      obtain ⟨a, mid, b, u, v, hp, ha, hm, hu, hw⟩ :=
        split_at (p := p) (s := s) (e := e) (by omega) (by omega)
      have hpv := validShortcut_pathValid hv
      rw [Int.toNat_natCast, Int.toNat_natCast, hu, hw] at hpv
      refine ⟨a, mid, b, u, v, hp, ?_, hpv, ?_, ?_⟩
      · intro h; rw [h] at hm; simp at hm; omega
      · unfold validShortcut at hv
        dsimp only at hv
        rw [Int.toNat_natCast, Int.toNat_natCast, hu, hw] at hv
        have hlen : pathLen env p s e = polyLength env.dist (u :: mid ++ [v]) := by
          unfold pathLen
          rw [if_neg (by omega), lengthLoop_eq _ _ _ _ _ (by omega), zero_add]
          congr 1
          have : e - s + 1 = mid.length + 2 := by omega
          rw [this, hp, ← ha, List.drop_left]
          simp [List.take_append]
        rw [hlen] at hv
        by_contra hcon
        rw [if_pos (not_lt.mp hcon)] at hv
        cases hv
      · have := doShortcut_eq env a mid b u v
        rw [← hp, ha, show s + mid.length + 1 = e by omega] at this
        simpa using this

theorem shortenLoop_kept (env : Env Q) (maxDist : Int) (orig : List Q) : ∀ (rs : List Round)
    (p : List Q), Kept env orig p → Kept env orig (shortenLoop env maxDist rs p) := by
  intro rs
  induction rs with
  | nil => intro p h; exact h
  | cons r rs ih =>
    intro p h
    rw [shortenLoop]
    split
    · exact h
    · apply ih
      rcases tryRandomShortcut_spec env p maxDist r.r1 r.r2 with e | ⟨a, mid, b, u, v, hp, _, hv, _, e⟩
      · rw [e]; exact h
      · rw [e]
        rw [hp] at h
        exact h.cut hv

theorem shortenLoop_length {env : Env Q} {d : Q → Q → ℝ} (hS : Straight env d) (h0 : ∀ a, d a a = 0)
    (ht : ∀ a b c, d a c ≤ d a b + d b c) (maxDist : Int) : ∀ (rs : List Round) (p : List Q),
    polyLength d (shortenLoop env maxDist rs p) ≤ polyLength d p := by
  intro rs
  induction rs with
  | nil => intro p; exact le_refl _
  | cons r rs ih =>
    intro p
    rw [shortenLoop]
    split
    · exact le_refl _
    · refine (ih _).trans ?_
      rcases tryRandomShortcut_spec env p maxDist r.r1 r.r2 with e | ⟨a, mid, b, u, v, hp, _, _, _, e⟩
      · rw [e]
      · rw [e, hp]; exact length_cut hS h0 ht a mid b u v

theorem clone_eq (path : List Q) : clone path = path := by
  unfold clone; rw [copyLoop_eq _ _ _ _ (by omega)]; simp

/-! ## Pruning -/

/-- The list around position `i` when two more points follow. -/
theorem split3 {p : List Q} {i : Nat} (h : i + 2 < p.length) :
    ∃ a b u m v, p = a ++ u :: m :: v :: b ∧ a.length = i ∧ getPoint p i = u ∧
      getPoint p (i + 2) = v ∧ erasePosition p (i + 1) = a ++ u :: v :: b := by
  obtain ⟨a, mid, b, u, v, hp, ha, hm, hu, hv⟩ :=
    split_at (p := p) (s := i) (e := i + 2) (by omega) (by omega)
  have : mid.length = 1 := by omega
  match mid, this with
  | [m], _ =>
    refine ⟨a, b, u, m, v, by simpa using hp, ha, hu, hv, ?_⟩
    unfold erasePosition
    rw [if_neg (by omega), eraseAt, hp, ← ha, take_snoc]
    rw [show a ++ u :: ([m] ++ v :: b) = (a ++ [u]) ++ m :: (v :: b) by simp]
    have := drop_snoc (a ++ [u]) (v :: b) m
    rw [show (a ++ [u]).length + 1 = a.length + 1 + 1 by simp] at this
    rw [this]; simp

theorem pruneLoop_spec (env : Env Q) : ∀ (fuel i : Nat) (p r : List Q), 2 ≤ p.length →
    pruneLoop env fuel i p = some r →
    ∀ (Inv : List Q → Prop), Inv p →
      (∀ a b u m v, Inv (a ++ u :: m :: v :: b) → env.pathValid u v = true →
        Inv (a ++ u :: v :: b)) → Inv r := by
  intro fuel
  induction fuel with
  | zero => intro i p r _ h; cases h
  | succ fuel ih =>
    intro i p r h2 h Inv hp hstep
    rw [pruneLoop] at h
    have hl : lenMinus2 p.length = p.length - 2 := by unfold lenMinus2; rw [if_pos h2]
    rw [hl] at h
    split at h
    · next hi =>
      obtain ⟨a, b, u, m, v, he, ha, hu, hv, her⟩ := split3 (p := p) (i := i) (by omega)
      split at h
      · next hval =>
        rw [hu, hv] at hval
        rw [her] at h
        exact ih _ _ _ (by simp; omega) h Inv (hstep a b u m v (he ▸ hp) hval) hstep
      · exact ih _ _ _ h2 h Inv hp hstep
    · cases h; exact hp

theorem pruneLoop_terminates (env : Env Q) : ∀ (k i fuel : Nat) (p : List Q), 2 ≤ p.length →
    i ≤ p.length → 2 * p.length - i ≤ k → k < fuel → ∃ r, pruneLoop env fuel i p = some r := by
  intro k
  induction k with
  | zero => intro i fuel p h2 hi hk; omega
  | succ k ih =>
    intro i fuel p h2 hi hk hf
    obtain ⟨fuel, rfl⟩ : ∃ f, fuel = f + 1 := ⟨fuel - 1, by omega⟩
    rw [pruneLoop]
    have hl : lenMinus2 p.length = p.length - 2 := by unfold lenMinus2; rw [if_pos h2]
    rw [hl]
    split
    · next hlt =>
      obtain ⟨a, b, u, m, v, he, ha, hu, hv, her⟩ := split3 (p := p) (i := i) (by omega)
      have hlen : (a ++ u :: v :: b).length + 1 = p.length := by rw [he]; simp; omega
      split
      · rw [her]
        split
        · exact ih _ _ _ (by simp; omega) (by omega) (by omega) (by omega)
        · exact ih _ _ _ (by simp; omega) (by omega) (by omega) (by omega)
      · exact ih _ _ _ h2 (by omega) (by omega) (by omega)
    · exact ⟨p, rfl⟩

/-- No point before position `i` can be left out. -/
def Tight (env : Env Q) (p : List Q) (i : Nat) : Prop :=
  ∀ k, k < i → ∀ u v, p[k]? = some u → p[k + 2]? = some v → env.pathValid u v = false

theorem pruneLoop_tight (env : Env Q) : ∀ (fuel i : Nat) (p r : List Q), 2 ≤ p.length →
    Tight env p i → pruneLoop env fuel i p = some r → Tight env r r.length := by
  intro fuel
  induction fuel with
  | zero => intro i p r _ _ h; cases h
  | succ fuel ih =>
    intro i p r h2 ht h
    rw [pruneLoop] at h
    have hl : lenMinus2 p.length = p.length - 2 := by unfold lenMinus2; rw [if_pos h2]
    rw [hl] at h
    split at h
    · next hi =>
      obtain ⟨a, b, u, m, v, he, ha, hu, hv, her⟩ := split3 (p := p) (i := i) (by omega)
      split at h
      · rw [her] at h
        refine ih _ _ _ (by simp; omega) ?_ h
        intro k hk x y hx hy
        have hk' : k + 1 < i := by split at hk <;> omega
        apply ht k (by omega) x y
        · rw [← hx, he]
          rw [List.getElem?_append_left (by omega), List.getElem?_append_left (by omega)]
        · rw [← hy, he]
          rcases Nat.lt_or_ge (k + 2) a.length with hc | hc
          · rw [List.getElem?_append_left hc, List.getElem?_append_left hc]
          · have : k + 2 = a.length := by omega
            rw [this]
            simp
      · next hval =>
        refine ih _ _ _ h2 ?_ h
        intro k hk x y hx hy
        rcases Nat.lt_or_ge k i with hc | hc
        · exact ht k hc x y hx hy
        · have : k = i := by omega
          subst this
          have h1 := getPoint_lt (path := p) (i := k) (by omega)
          have h3 := getPoint_lt (path := p) (i := k + 2) (by omega)
          rw [hx] at h1; rw [hy] at h3
          rw [Option.some.inj h1, Option.some.inj h3]
          simpa using hval
    · next hi =>
      cases h
      intro k hk u v hu hv
      have : k + 2 < p.length := by
        by_contra hc
        rw [List.getElem?_eq_none (by omega)] at hv; cases hv
      exact ht k (by omega) u v hu hv

end Simox.Shortcut
