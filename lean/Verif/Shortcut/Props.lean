import Verif.Shortcut.Lemmas
import Verif.Rrt.Sampled

/-!
# Property C26: shortcutting and pruning preserve the solution
-/

namespace Simox.Shortcut

open Simox.Trajectory Simox.Trajectory.Spec Simox.Rrt.Spec Spec Simox.CSpace Simox.Rrt

set_option linter.unusedSectionVars false

section generic

variable {Q : Type} [Zero Q]

/-- **C26.** Whatever the random choices, the number of rounds and the moment of a stop request: the
shortened path begins and ends like the original one; each of its segments is a segment of the original
path or a piece of a local path between two configurations whose connection was checked; and it is not
longer than the original path, in every distance for which local paths are straight. -/
theorem C26_shorten (env : Env Q) (path : List Q) (maxDist : Int) (rounds : List Round) :
    SameEnds path (shortenSolutionRandom env path maxDist rounds) ∧
    (∀ u v, Consecutive (shortenSolutionRandom env path maxDist rounds) u v →
      SegmentOK env path u v) ∧
    ∀ d : Q → Q → ℝ, (∀ a, d a a = 0) → (∀ a b c, d a c ≤ d a b + d b c) → Straight env d →
      polyLength d (shortenSolutionRandom env path maxDist rounds) ≤ polyLength d path := by
  unfold shortenSolutionRandom
  dsimp only
  rw [clone_eq]
  split
  · exact ⟨⟨rfl, rfl⟩, fun _ _ h => Or.inl h, fun _ _ _ _ => le_refl _⟩
  · have k := shortenLoop_kept env maxDist path rounds path (Kept.refl env path)
    exact ⟨k.ends, k.seg, fun d h0 ht hS => shortenLoop_length hS h0 ht maxDist rounds path⟩

/-- **C26.** A shortcut is only taken when the straight line is at least one percent shorter than the part
of the path it replaces, and when the local path between its ends was checked; otherwise the path stays as
it is. -/
theorem C26_round (env : Env Q) (p : List Q) (maxDist : Int) (r1 r2 : Nat) :
    (tryRandomShortcut env p maxDist r1 r2).2 = p ∨
    ∃ a mid b u v, p = a ++ u :: (mid ++ v :: b) ∧ mid ≠ [] ∧ env.pathValid u v = true ∧
      env.norm u v < polyLength env.dist (u :: mid ++ [v]) * 0.99 ∧
      (tryRandomShortcut env p maxDist r1 r2).2 =
        a ++ u :: (innerPoints (env.path u v) ++ v :: b) :=
  tryRandomShortcut_spec env p maxDist r1 r2

/-- **C26.** The candidate selection never proposes positions outside the path or neighbouring ones. -/
theorem C26_candidates (p : List Q) (maxDist : Int) (r1 r2 : Nat) (s e : Int)
    (h : selectCandidates p maxDist r1 r2 = some (s, e)) : 0 ≤ s ∧ s + 2 ≤ e ∧ e < p.length :=
  selectCandidates_spec h

/-- **C26.** Every path with at least three points has candidates, whatever the random numbers, and the
positions are at most `maxDist + 1` apart. -/
theorem C26_candidates_exist (p : List Q) (maxDist : Int) (r1 r2 : Nat) (h : 3 ≤ p.length) :
    ∃ s e, selectCandidates p maxDist r1 r2 = some (s, e) ∧ e ≤ s + max 2 maxDist + 1 := by
  have hr : r1 % (p.length - 2) < p.length - 2 := Nat.mod_lt _ (by omega)
  unfold selectCandidates
  rw [if_neg (by omega)]
  dsimp only
  generalize r1 % (p.length - 2) = s at hr
  have hM : (2 : Int) ≤ (if maxDist < 2 then 2 else maxDist) ∧
      (if maxDist < 2 then 2 else maxDist) = max 2 maxDist := by
    split <;> omega
  revert hM
  generalize (if maxDist < 2 then (2 : Int) else maxDist) = M
  rintro ⟨hM, hMe⟩
  have hR : ∃ R : Nat, (if (p.length : Int) - 2 - s > M then M else (p.length : Int) - 2 - s) = R ∧
      0 < R ∧ (R : Int) ≤ M ∧ (R : Int) ≤ p.length - 2 - s := by
    split
    · exact ⟨M.toNat, by omega, by omega, by omega, by omega⟩
    · exact ⟨((p.length : Int) - 2 - s).toNat, by omega, by omega, by omega, by omega⟩
  obtain ⟨R, hRe, hR0, hRM, hRl⟩ := hR
  rw [hRe, Int.toNat_natCast]
  have hr2 : r2 % R < R := Nat.mod_lt _ hR0
  generalize r2 % R = D at hr2
  rw [if_neg (by omega), if_neg (by omega), if_neg (by omega), if_neg (by omega), if_neg (by omega)]
  exact ⟨_, _, rfl, by omega⟩

/-- **C26**, pruning: for a path with at least two points `doPathPruning` terminates; the result keeps the
ends, is a part of the original path, consists of original segments and checked connections, is not longer
in any metric, and no single point of it could still be left out. -/
theorem C26_prune (env : Env Q) (path : List Q) (h2 : 2 ≤ path.length) :
    ∃ r N, (∀ fuel, N ≤ fuel → doPathPruning env path fuel = some r) ∧
      SameEnds path r ∧ r.Sublist path ∧
      (∀ u v, Consecutive r u v → Consecutive path u v ∨ env.pathValid u v = true) ∧
      (∀ d : Q → Q → ℝ, (∀ a, d a a = 0) → (∀ a b c, d a c ≤ d a b + d b c) →
        polyLength d r ≤ polyLength d path) ∧
      ∀ a b u m v, r = a ++ u :: m :: v :: b → env.pathValid u v = false := by
  obtain ⟨r, hr⟩ := pruneLoop_terminates env (2 * path.length) 0 (2 * path.length + 1) path h2
    (by omega) (by omega) (by omega)
  have mono : ∀ (f i : Nat) (p r : List Q), pruneLoop env f i p = some r → ∀ g, f ≤ g →
      pruneLoop env g i p = some r := by
    intro f
    induction f with
    | zero => intro i p r h; cases h
    | succ f ih =>
      intro i p r h g hg
      obtain ⟨g, rfl⟩ : ∃ g', g = g' + 1 := ⟨g - 1, by omega⟩
      rw [pruneLoop] at h ⊢
      split at h
      · next h1 =>
        rw [if_pos h1]
        split at h
        · next h3 => rw [if_pos h3]; exact ih _ _ _ h g (by omega)
        · next h3 => rw [if_neg h3]; exact ih _ _ _ h g (by omega)
      · next h1 => rw [if_neg h1]; exact h
  refine ⟨r, 2 * path.length + 1, ?_, ?_, ?_, ?_, ?_, ?_⟩
  · intro fuel hf
    unfold doPathPruning
    rw [clone_eq]
    exact mono _ _ _ _ hr _ hf
  · refine pruneLoop_spec env _ _ _ _ h2 hr (SameEnds path) ⟨rfl, rfl⟩ ?_
    rintro a b u m v ⟨ha, hb⟩ _
    refine ⟨?_, ?_⟩
    · rw [← ha]; cases a <;> rfl
    · rw [← hb]
      simp [List.getLast?_append]
  · refine pruneLoop_spec env _ _ _ _ h2 hr (fun l => l.Sublist path) (List.Sublist.refl _) ?_
    intro a b u m v h _
    refine List.Sublist.trans ?_ h
    exact (List.Sublist.refl a).append (((List.Sublist.refl _).cons m).cons_cons u)
  · refine pruneLoop_spec env _ _ _ _ h2 hr (fun l => ∀ u v, Consecutive l u v →
      Consecutive path u v ∨ env.pathValid u v = true) (fun _ _ h => Or.inl h) ?_
    intro a b u m v h hv x y hxy
    rw [consecutive_append] at hxy
    rcases hxy with hxy | hxy
    · exact h x y (consecutive_append.mpr (Or.inl hxy))
    · rw [show u :: v :: b = [u] ++ v :: b from rfl, consecutive_append] at hxy
      rcases hxy with ⟨l1, l2, e⟩ | hxy
      · right
        match l1, e with
        | [], e => simp at e; rw [← e.1, ← e.2.1]; exact hv
        | [_], e => simp at e
        | _ :: _ :: _, e => simp at e
      · refine h x y ?_
        rw [show a ++ u :: m :: v :: b = (a ++ [u, m]) ++ v :: b by simp]
        exact consecutive_append.mpr (Or.inr hxy)
  · intro d h0 ht
    refine pruneLoop_spec env _ _ _ _ h2 hr (fun l => polyLength d l ≤ polyLength d path)
      (le_refl _) ?_
    intro a b u m v h _
    refine le_trans ?_ h
    rw [polyLength_append d u (v :: b) a, polyLength_append d u (m :: v :: b) a]
    simp only [polyLength_cons_cons]
    linarith [ht u m v]
  · intro a b u m v h
    have ht := pruneLoop_tight env _ _ _ _ h2 (fun k hk => absurd hk (by omega)) hr
    apply ht a.length (by rw [h]; simp) u v
    · rw [h]; simp
    · rw [h, List.getElem?_append_right (by omega)]
      simp

/-- Pruning a path with a single valid point never ends: `getNrOfPoints() - 2` wraps around.
(Violation of termination.) -/
theorem C26_prune_single_point_diverges (env : Env Q) (q : Q) (hv : env.pathValid q q = true)
    (fuel : Nat) : doPathPruning env [q] fuel = none := by
  have hg : ∀ i, getPoint [q] i = q := by
    intro i
    unfold getPoint
    split
    · simp
    · next h => simp at h; simp [h]
  have he : erasePosition [q] (0 + 1) = [q] := by
    unfold erasePosition; simp
  have hl : lenMinus2 [q].length = 2 ^ 32 - 1 := rfl
  have key : ∀ fuel, pruneLoop env fuel 0 [q] = none := by
    intro fuel
    induction fuel with
    | zero => rfl
    | succ f ih =>
      rw [pruneLoop, hl, if_pos (by norm_num), hg, hg, if_pos hv, he]
      exact ih
  unfold doPathPruning
  rw [clone_eq]
  exact key fuel

end generic

/-! ## The sampled C-space -/

variable {n : Nat}

/-- The processor's C-space calls, answered by a `CSpaceSampled` (`Simox.Rrt.Setup`); `norm` is the
Euclidean norm of the difference. -/
noncomputable def sampledEnv (P : Setup n) (buf : Nat → Config n) : Env (Config n) where
  pathValid := (P.env buf).pathValid
  path := (P.env buf).path
  dist a b := P.space.calcDist a b true
  norm a b := √(∑ i, (b i - a i) ^ 2)

/-- The local path is straight for every distance that the interpolation divides in proportion. -/
theorem createPathLoop_straight {G : Geo (Config n)} {d : Config n → Config n → ℝ}
    (hl : ∀ a b f, 0 ≤ f → f ≤ 1 → d a (G.interp a b f) = f * d a b)
    (hr : ∀ a b f, 0 ≤ f → f ≤ 1 → d (G.interp a b f) b = (1 - f) * d a b)
    {ss : ℝ} (hss : 0 < ss) (goal : Config n) (hself : G.dist goal goal = 0) :
    ∀ (fuel : Nat) (last : Config n) (lastNode : Bool)
    (acc q : List (Config n)), (lastNode = false → ss ≤ G.dist last goal) →
    G.createPathLoop ss goal fuel last (G.dist last goal) lastNode acc = some q →
    ∃ p e, q = acc ++ p ++ [e] ∧ polyLength d (last :: p ++ [goal]) = d last goal := by
  intro fuel
  induction fuel with
  | zero => intro last lastNode acc q _ h; cases h
  | succ fuel ih =>
    intro last lastNode acc q hb h
    cases lastNode with
    | true =>
      rw [Geo.createPathLoop] at h
      simp only [if_true, hself, true_or] at h
      rw [if_pos (by positivity)] at h
      cases h
      exact ⟨[], goal, by simp, by simp [polyLength]⟩
    | false =>
      have hd : ss ≤ G.dist last goal := hb rfl
      have h0 : 0 ≤ ss / G.dist last goal := div_nonneg hss.le (hss.le.trans hd)
      have h1 : ss / G.dist last goal ≤ 1 := by
        rw [div_le_one (lt_of_lt_of_le hss hd)]; exact hd
      rw [Geo.createPathLoop] at h
      simp only [Bool.false_eq_true, if_false, false_or] at h
      have ha := hl last goal _ h0 h1
      have hb' := hr last goal _ h0 h1
      revert h ha hb'
      generalize G.interp last goal (ss / G.dist last goal) = x
      generalize ss / G.dist last goal = f
      intro h ha hb'
      have next : ∀ b : Bool, (b = false → ss ≤ G.dist x goal) →
          G.createPathLoop ss goal fuel x (G.dist x goal) b (acc ++ [x]) = some q →
          ∃ p e, q = acc ++ p ++ [e] ∧ polyLength d (last :: p ++ [goal]) = d last goal := by
        intro b hbx h
        obtain ⟨p, e, hq, hp⟩ := ih _ _ _ _ hbx h
        refine ⟨x :: p, e, by rw [hq]; simp, ?_⟩
        rw [List.cons_append, List.cons_append, polyLength_cons_cons]
        rw [List.cons_append] at hp
        rw [hp, ha, hb']
        ring
      by_cases hc : G.dist x goal ≤ ss * 1.05
      · rw [if_pos hc] at h
        split at h
        · cases h
          exact ⟨[], x, by simp, by simp [polyLength]⟩
        · exact next true (by simp) h
      · rw [if_neg hc] at h
        exact next false (fun _ => by have := not_le.mp hc; nlinarith) h

theorem sampled_straight (P : Setup n) (ok : P.OK) (buf : Nat → Config n) (force : Bool) :
    Straight (sampledEnv P buf) (fun a b => P.space.calcDist a b force) := by
  intro a b
  change polyLength _ (a :: innerPoints ((P.env buf).path a b) ++ [b]) = _
  by_cases hd : P.space.calcDist a b false = 0
  · have : (P.env buf).path a b = [a] := by
      refine settled_eq (N := 0) fun k _ => ?_
      have : P.space.geo.dist a b = 0 := hd
      simp [Geo.createPath, this]
    rw [this]
    simp [innerPoints, polyLength]
  · obtain ⟨p, e, _, h2, N, hN⟩ := C21_path_partial P.space ok.noTrans ok.ss a b hd
    have hpath : (P.env buf).path a b = a :: p ++ [e] := settled_eq hN
    rw [hpath]
    have h := hN N (le_refl _)
    unfold Geo.createPath at h
    dsimp only at h
    rw [if_neg (show ¬ P.space.geo.dist a b = 0 from hd)] at h
    obtain ⟨p', e', hq, hp⟩ := createPathLoop_straight (G := P.space.geo)
      (d := fun a b => P.space.calcDist a b force)
      (fun a b f h0 h1 => (C38_interpolation_proportional P.space ok.noTrans a b f h0 h1 force).1)
      (fun a b f h0 h1 => (C38_interpolation_proportional P.space ok.noTrans a b f h0 h1 force).2)
      ok.ss b ((geoOK P.space ok.noTrans).self b) N a _ [a] _ (by
        intro h
        have := of_decide_eq_false h
        exact not_lt.mp this) h
    have : innerPoints (a :: p ++ [e]) = p := by
      unfold innerPoints
      rw [List.dropLast_concat, List.tail_cons]
    rw [this]
    have hpp : p = p' := by
      have hq : (a :: p) ++ [e] = (a :: p') ++ [e'] := by rw [hq]; simp
      have := List.append_inj_left' hq rfl
      exact (List.cons.inj this).2
    rw [hpp]
    exact hp

/-- **C26** for a sampled C-space: shortening keeps the ends of the path, never makes it longer (neither
with nor without metric weights), and every segment of the result is an original one or a piece of a local
path along which the C-space found a sequence of valid configurations at most `1.001` DCD sampling sizes
apart. -/
theorem C26_sampled (P : Setup n) (ok : P.OK) (buf : Nat → Config n) (path : List (Config n))
    (maxDist : Int) (rounds : List Round) :
    SameEnds path (shortenSolutionRandom (sampledEnv P buf) path maxDist rounds) ∧
    (∀ force, polyLength (fun a b => P.space.calcDist a b force)
        (shortenSolutionRandom (sampledEnv P buf) path maxDist rounds) ≤
      polyLength (fun a b => P.space.calcDist a b force) path) ∧
    ∀ u v, Consecutive (shortenSolutionRandom (sampledEnv P buf) path maxDist rounds) u v →
      Consecutive path u v ∨
      ∃ a b way, Simox.CSpace.Spec.ValidWay (fun x y => P.space.calcDist x y false) P.validN
          (P.dcd * 1.001) a b way ∧
        Consecutive (a :: innerPoints ((P.env buf).path a b) ++ [b]) u v := by
  obtain ⟨h1, h2, h3⟩ := C26_shorten (sampledEnv P buf) path maxDist rounds
  refine ⟨h1, fun force => ?_, fun u v huv => ?_⟩
  · exact h3 _ (fun a => (C38_dist_pseudo_metric P.space force a a a).2.1)
      (fun a b c => (C38_dist_pseudo_metric P.space force a b c).2.2.2)
      (sampled_straight P ok buf force)
  · rcases h2 u v huv with h | ⟨a, b, hv, hc⟩
    · exact Or.inl h
    · right
      obtain ⟨_, l, hl⟩ := C22_valid_sound P.space.geo P.validN P.dcd (fun _ => false) a b buf hv
      exact ⟨a, b, l, hl, hc⟩

/-! ## Examples -/

/-- Points on a line, everything valid, local paths without intermediate points. -/
def lineEnv : Env ℤ where
  pathValid _ _ := true
  path a b := [a, b]
  dist a b := |((b - a : ℤ) : ℝ)|
  norm a b := |((b - a : ℤ) : ℝ)|

/-- A detour `0, 5, 1, 2` is cut to `0, 1, 2` in one round. -/
example : shortenSolutionRandom lineEnv [0, 5, 1, 2] 10 [⟨false, 0, 0⟩] = [0, 1, 2] := by
  have hc : clone ([0, 5, 1, 2] : List ℤ) = [0, 5, 1, 2] := rfl
  have hs : selectCandidates ([0, 5, 1, 2] : List ℤ) 10 0 0 = some (0, 2) := by decide
  have hv : validShortcut lineEnv [0, 5, 1, 2] 0 2 = true := by
    have h1 : getPoint ([0, 5, 1, 2] : List ℤ) (0 : Int).toNat = 0 := by decide
    have h2 : getPoint ([0, 5, 1, 2] : List ℤ) (2 : Int).toNat = 1 := by decide
    have h3 : pathLen lineEnv [0, 5, 1, 2] (0 : Int).toNat (2 : Int).toNat = 9 := by
      simp [pathLen, lengthLoop, lineEnv]; norm_num
    unfold validShortcut
    simp only [h1, h2, h3]
    rw [if_neg]
    · rfl
    · simp [lineEnv]; norm_num
  unfold shortenSolutionRandom
  simp only [hc]
  simp [shortenLoop, tryRandomShortcut, hs, hv]
  rfl

example : Straight lineEnv lineEnv.dist := by
  intro a b
  simp [innerPoints, lineEnv, polyLength]

/-- Pruning removes the detour as well. -/
example : doPathPruning lineEnv [0, 5, 1, 2] 9 = some [0, 2] := by decide

end Simox.Shortcut
