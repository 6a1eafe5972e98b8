/-
Invariants of voxel trees over all sequences of `setEntry` calls.
-/
import Verif.Voxel.Lemmas2

namespace Simox.Vox

variable {N : Nat} {T : Type}

theorem posOf_zero (P : Params N) : posOf P 0 (fun _ => 0) = P.min := by
  funext i; simp [posOf]

theorem cv_zero (P : Params N) (p : Fin N → ℚ) : cv P 0 p = fun _ => 0 := by
  funext i; exact cvox_zero _ _ _

/-- Invariant of a tree. -/
structure Inv (P : Params N) (t : Tree N T) : Prop where
  ne : t.root ≠ .null
  wf : Wf P t.root 0 (fun _ => 0)
  ids : (idsOf t.root).Perm (List.range' 1 t.currentID)
  full : FullBelow t.root
  root1 : t.root.idOr0 = 1

theorem inv_new (P : Params N) (hP : P.Ok) : Inv P (newTree P : Tree N T) := by
  refine ⟨newElem_ne_null P _ _ _, ?_, ?_, ?_, ?_⟩
  · have := newElem_wf (T := T) P 1 0 (fun _ => 0) (by have := hP.2; omega)
    rw [posOf_zero] at this
    exact this
  · unfold newTree
    rw [newElem_ids]
    exact List.Perm.refl _
  · unfold newTree newElem
    simp only
    split
    · trivial
    · intro k; trivial
  · unfold newTree newElem
    simp only
    split <;> rfl

theorem node_levels (P : Params N) (e : Elem N T) (l : Nat) (k : Fin N → Nat) (h : Wf P e l k) :
    ∀ (i : Info N) (c : Nat → Elem N T), e = .node i c → i.level + 1 < P.maxLevels := by
  intro i c he
  rw [he] at h
  rw [h.1]
  exact h.2.2.1

theorem set_inv (P : Params N) (hP : P.Ok) (t : Tree N T) (h : Inv P t) (p : Fin N → ℚ) (x : T) :
    ∃ t' ok, t.set P p x = some (t', ok) ∧ Inv P t' ∧
      (InBox P.min P.size p → ok = true ∧ Full t'.root ∧ t.currentID ≤ t'.currentID ∧
        ∀ v, (∀ i, v i < 2 ^ (P.maxLevels - 1)) → content (P.maxLevels - 1) t'.root 0 v =
          if v = cv P (P.maxLevels - 1) p then some x else content (P.maxLevels - 1) t.root 0 v) ∧
      (¬ InBox P.min P.size p → ok = false ∧ t' = t) := by
  obtain ⟨f, hf⟩ : ∃ f, P.maxLevels = f + 1 := ⟨P.maxLevels - 1, by have := hP.2; omega⟩
  by_cases hp : InBox P.min P.size p
  · have hw : Wf P t.root 0 (cv P 0 p) := by rw [cv_zero]; exact h.wf
    obtain ⟨e', next', h1, h2, h3, h4⟩ := setEntry_spec P hP p hp x P.maxLevels t.root 0 t.currentID
      (by omega) hP.2 h.ne hw
    have hids := setEntry_ids P p x P.maxLevels t.root t.currentID _ h1
      (node_levels P _ _ _ h.wf) ⟨_, _, h.wf⟩
    have hfull := setEntry_full P p x P.maxLevels t.root t.currentID _ h1 h.full rfl
    refine ⟨⟨e', next'⟩, true, by simp [Tree.set, h1], ⟨h2, ?_, ?_, hfull.1.below,
      (setEntry_id P p x _ _ _ _ h1).trans h.root1⟩, ?_,
      fun hn => absurd hp hn⟩
    · have h3' : Wf P e' 0 (cv P 0 p) := h3
      rw [cv_zero] at h3'
      exact h3'
    · have e1 := hids.2.trans (h.ids.append_right _)
      have hle := hids.1
      simp only at e1 hle
      refine e1.trans ?_
      have : next' = t.currentID + (next' - t.currentID) := by omega
      show (List.range' 1 t.currentID ++ List.range' (t.currentID + 1) (next' - t.currentID)).Perm
        (List.range' 1 next')
      conv => rhs; rw [this]
      rw [← List.range'_append_1, Nat.add_comm 1 t.currentID]
    · intro _
      refine ⟨rfl, hfull.1, hids.1, ?_⟩
      intro v hv
      apply h4 v
      intro i
      rw [cv_zero]
      simp only
      rw [Nat.sub_zero]
      exact Nat.div_eq_of_lt (hv i)
  · have := setEntry_outside P p x f t.root t.currentID h.ne _ h.wf rfl hp
    refine ⟨t, false, by simp [Tree.set, hf, this], h, fun hh => absurd hh hp, fun _ => ⟨rfl, rfl⟩⟩

theorem cv_lt (P : Params N) (l : Nat) (p : Fin N → ℚ) (i : Fin N) : cv P l p i < 2 ^ l :=
  cvox_lt _ _ _ _

theorem cv_same (P : Params N) (hP : P.Ok) (p q : Fin N → ℚ) (hp : InBox P.min P.size p)
    (hq : InBox P.min P.size q) :
    cv P (P.maxLevels - 1) q = cv P (P.maxLevels - 1) p ↔
      SameVoxel P.min (fun i => P.size i / 2 ^ (P.maxLevels - 1)) p q := by
  unfold SameVoxel
  constructor
  · intro h i
    have := congrFun h i
    unfold cv at this
    rw [cvox_inside _ _ (hP.1 i) _ (hp i).2, cvox_inside _ _ (hP.1 i) _ (hq i).2] at this
    exact this.symm
  · intro h
    funext i
    unfold cv
    rw [cvox_inside _ _ (hP.1 i) _ (hp i).2, cvox_inside _ _ (hP.1 i) _ (hq i).2]
    exact (h i).symm

theorem lastWrite_cons {A B : Type} (hits : A → Prop) [DecidablePred hits] (w : A × B)
    (ws : List (A × B)) : lastWrite hits (w :: ws) =
      (lastWrite hits ws).or (if hits w.1 then some w.2 else none) := by
  conv => lhs; unfold lastWrite
  cases lastWrite hits ws <;> rfl

open Classical in
theorem run_inv (P : Params N) (hP : P.Ok) : ∀ (ws : List ((Fin N → ℚ) × T)) (t : Tree N T), Inv P t →
    ∃ t', runSets P ws t = some t' ∧ Inv P t' ∧ t.currentID ≤ t'.currentID ∧
      ((∃ w ∈ ws, InBox P.min P.size w.1) ∨ Full t.root → Full t'.root) ∧
      ((∀ w ∈ ws, ¬ InBox P.min P.size w.1) → t' = t) ∧
      ∀ q, InBox P.min P.size q → content (P.maxLevels - 1) t'.root 0 (cv P (P.maxLevels - 1) q) =
        match lastWrite (fun p => InBox P.min P.size p ∧
          SameVoxel P.min (fun i => P.size i / 2 ^ (P.maxLevels - 1)) p q) ws with
        | some x => some x
        | none => content (P.maxLevels - 1) t.root 0 (cv P (P.maxLevels - 1) q) := by
  intro ws
  induction ws with
  | nil =>
    intro t h
    exact ⟨t, rfl, h, Nat.le_refl _, by simp, fun _ => rfl, fun q _ => rfl⟩
  | cons w ws ih =>
    intro t h
    obtain ⟨t1, ok, h1, h2, h3, h4⟩ := set_inv P hP t h w.1 w.2
    obtain ⟨t', g1, g2, g3, g4, g5, g6⟩ := ih t1 h2
    have hid : t.currentID ≤ t1.currentID := by
      by_cases hp : InBox P.min P.size w.1
      · exact (h3 hp).2.2.1
      · rw [(h4 hp).2]
    refine ⟨t', by simp only [runSets, h1]; exact g1, g2, le_trans hid g3, ?_, ?_, ?_⟩
    · intro hh
      apply g4
      by_cases hp : InBox P.min P.size w.1
      · exact Or.inr (h3 hp).2.1
      · rcases hh with ⟨w', hw', hb⟩ | hf
        · rcases List.mem_cons.1 hw' with rfl | hw'
          · exact absurd hb hp
          · exact Or.inl ⟨w', hw', hb⟩
        · rw [(h4 hp).2]; exact Or.inr hf
    · intro hh
      rw [g5 (fun w' hw' => hh w' (by simp [hw'])), (h4 (hh w (by simp))).2]
    · intro q hq
      rw [g6 q hq, lastWrite_cons]
      cases hl : lastWrite (fun p => InBox P.min P.size p ∧
          SameVoxel P.min (fun i => P.size i / 2 ^ (P.maxLevels - 1)) p q) ws with
      | some x => rfl
      | none =>
        simp only
        by_cases hp : InBox P.min P.size w.1
        · rw [(h3 hp).2.2.2 _ (cv_lt P _ q)]
          have hs := cv_same P hP w.1 q hp hq
          by_cases he : cv P (P.maxLevels - 1) q = cv P (P.maxLevels - 1) w.1
          · rw [if_pos he, if_pos ⟨hp, hs.1 he⟩]; rfl
          · rw [if_neg he, if_neg (fun hh => he (hs.2 hh.2))]; rfl
        · rw [(h4 hp).2, if_neg (fun hh => hp hh.1)]; rfl

/-- The centre of a voxel lies in that voxel. -/
theorem cv_center (P : Params N) (hP : P.Ok) (m : Nat) (v : Fin N → Nat) (hv : ∀ i, v i < 2 ^ m) :
    ∃ q, InBox P.min P.size q ∧ cv P m q = v := by
  have hp : (0 : ℚ) < 2 ^ m := by positivity
  refine ⟨fun i => P.min i + P.size i * ((v i : ℚ) + 1 / 2) / 2 ^ m, ?_, ?_⟩
  · intro i
    have hs := hP.1 i
    have h1 : (0 : ℚ) ≤ P.size i * ((v i : ℚ) + 1 / 2) / 2 ^ m := by positivity
    have h2 : ((v i : ℚ) + 1 / 2) / 2 ^ m ≤ 1 := by
      rw [div_le_one hp]
      have : (v i : ℚ) + 1 ≤ 2 ^ m := by exact_mod_cast hv i
      linarith
    have h3 : P.size i * ((v i : ℚ) + 1 / 2) / 2 ^ m = P.size i * (((v i : ℚ) + 1 / 2) / 2 ^ m) := by
      ring
    constructor
    · linarith
    · show P.min i + P.size i * ((v i : ℚ) + 1 / 2) / 2 ^ m ≤ P.min i + P.size i
      rw [h3]
      have : P.size i * (((v i : ℚ) + 1 / 2) / 2 ^ m) ≤ P.size i * 1 :=
        mul_le_mul_of_nonneg_left h2 hs.le
      linarith
  · funext i
    unfold cv cvox
    have hs := hP.1 i
    have e : (P.min i + P.size i * ((v i : ℚ) + 1 / 2) / 2 ^ m - P.min i) / P.size i * 2 ^ m =
        (v i : ℚ) + 1 / 2 := by
      field_simp
      ring
    rw [e]
    have hc : ⌈(v i : ℚ) + 1 / 2⌉₊ = v i + 1 := by
      rw [Nat.ceil_eq_iff (by omega)]
      push_cast
      constructor
      · have : ((v i + 1 - 1 : ℕ) : ℚ) = v i := by norm_num
        push_cast at this ⊢
        simp
      · linarith
    rw [hc]
    have := hv i
    omega

/-- Members of the maximum loop. -/
theorem foldl_max_ge (l : List Nat) : ∀ m, m ≤ l.foldl (fun m s => if s > m then s else m) m ∧
    ∀ s ∈ l, s ≤ l.foldl (fun m s => if s > m then s else m) m := by
  induction l with
  | nil => intro m; simp
  | cons a as ih =>
    intro m
    rw [List.foldl_cons]
    obtain ⟨h1, h2⟩ := ih (if a > m then a else m)
    have h3 : m ≤ (if a > m then a else m) ∧ a ≤ (if a > m then a else m) := by split <;> omega
    refine ⟨le_trans h3.1 h1, ?_⟩
    intro s hs
    rcases List.mem_cons.1 hs with rfl | hs
    · exact le_trans h3.2 h1
    · exact h2 s hs

theorem steps_le_max (size discr : Fin N → ℚ) (i : Fin N) :
    steps (size i) (discr i) ≤ maxSteps size discr := by
  unfold maxSteps
  apply (foldl_max_ge _ 0).2
  rw [List.mem_ofFn]
  exact ⟨i, rfl⟩

/-- The iterator's calls from a state on. -/
theorem iter_all : ∀ (rest : List (Elem N T)) (s : Iter N T), At s rest → StackFull s.elems.tail →
    ∀ n, (Nat.iterate iterNext n s).cur = (s.cur :: rest).getD n .null := by
  intro rest
  induction rest with
  | nil =>
    intro s hs hf n
    obtain ⟨⟨i, en, hc⟩, hr⟩ := hs
    have hup : goUp s.elems.tail s.ids = none := by
      obtain ⟨g1, g2⟩ := goUp_spec s.elems.tail s.ids hf
      rcases h : goUp s.elems.tail s.ids with _ | ⟨k, x, es, is⟩
      · rfl
      · obtain ⟨a, b, _, d⟩ := g2 k x es is h
        rw [← hr] at d
        obtain ⟨y, ys, e1, _⟩ := goDown_spec x k es is a b
        rw [e1] at d
        simp at d
    have hnext : iterNext s = ⟨[], [], .null⟩ := by
      unfold iterNext
      rw [hc, hup]
    have hstay : ∀ m, Nat.iterate iterNext m (⟨[], [], .null⟩ : Iter N T) = ⟨[], [], .null⟩ := by
      intro m
      induction m with
      | zero => rfl
      | succ m ih => rw [Function.iterate_succ_apply]; exact ih
    cases n with
    | zero => rfl
    | succ n =>
      rw [Function.iterate_succ_apply, hnext, hstay]
      simp
  | cons y ys ih =>
    intro s hs hf n
    obtain ⟨⟨i, en, hc⟩, hr⟩ := hs
    obtain ⟨g1, g2⟩ := goUp_spec s.elems.tail s.ids hf
    rcases h : goUp s.elems.tail s.ids with _ | ⟨k, x, es, is⟩
    · rw [← hr] at g1
      exact absurd (g1 h) (by simp)
    · obtain ⟨a, b, c, d⟩ := g2 k x es is h
      rw [← hr] at d
      obtain ⟨y', ys', e1, e2, e3⟩ := goDown_spec x k es is a b
      rw [e1, List.cons_append] at d
      injection d with d1 d2
      have hnext : iterNext s = goDown x k es is := by
        unfold iterNext
        rw [hc, h]
      cases n with
      | zero => rfl
      | succ n =>
        rw [Function.iterate_succ_apply, hnext]
        rw [← d2] at e3
        rw [ih _ e3 (goDown_stack x k es is a b c) n, e2, ← d1]
        simp

end Simox.Vox
