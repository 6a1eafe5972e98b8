import Verif.Kin.LemmasLim

/-!
# Lemmas about kinematic trees, propagation and configurations
-/

set_option linter.unusedSectionVars false

namespace Simox.Kin

open Spec

variable {G : Type} [Group G]

theorem upd_self {β : Type} (f : Nat → β) (i : Nat) (b : β) : upd f i b i = b := by simp [upd]
theorem upd_ne {β : Type} (f : Nat → β) {i j : Nat} (b : β) (h : j ≠ i) : upd f i b j = f j := by
  simp [upd, h]

/-! ## Consistency of stored poses, recursively over the tree -/

mutual
/-- The poses below a parent with pose `P` are consistent. -/
def Cons (loc : Nat → ℝ → G) (v : Nat → ℝ) : Tree → G → (Nat → G) → Prop
  | .node i ks, P, f => f i = P * loc i (v i) ∧ ConsL loc v ks (f i) f
/-- All children are consistent. -/
def ConsL (loc : Nat → ℝ → G) (v : Nat → ℝ) : List Tree → G → (Nat → G) → Prop
  | [], _, _ => True
  | k :: ks, P, f => Cons loc v k P f ∧ ConsL loc v ks P f
end

theorem consL_iff (loc : Nat → ℝ → G) (v : Nat → ℝ) (ks : List Tree) (P : G) (f : Nat → G) :
    ConsL loc v ks P f ↔ ∀ k ∈ ks, Cons loc v k P f := by
  induction ks with
  | nil => simp [ConsL]
  | cons k ks ih => simp [ConsL, ih]

theorem mem_idsL {j : Nat} {ks : List Tree} : j ∈ idsL ks ↔ ∃ k ∈ ks, j ∈ k.ids := by
  induction ks with
  | nil => simp [idsL]
  | cons k ks ih => simp [idsL, ih]

theorem chain_mem {t : Tree} {j : Nat} {l : List Nat} (h : Chain t j l) : j ∈ t.ids := by
  induction h with
  | here i ks => simp [Tree.ids]
  | step i ks k j l hk _ ih =>
    simp only [Tree.ids, List.mem_cons]
    exact Or.inr (mem_idsL.2 ⟨k, hk, ih⟩)

theorem cons_chain {loc : Nat → ℝ → G} {v : Nat → ℝ} {t : Tree} {j : Nat} {l : List Nat}
    (hc : Chain t j l) : ∀ {P : G} {f : Nat → G}, Cons loc v t P f →
      f j = P * (l.map (fun i => loc i (v i))).prod := by
  induction hc with
  | here i ks => intro P f h; simp only [Cons] at h; simpa using h.1
  | step i ks k j l hk _ ih =>
    intro P f h
    simp only [Cons] at h
    have hk' := (consL_iff loc v ks (f i) f).1 h.2 k hk
    rw [ih hk', h.1]
    simp [mul_assoc]

mutual
theorem exists_chain : ∀ (t : Tree) (j : Nat), j ∈ t.ids →
    ∃ l, Chain t j l ∧ ∀ i ∈ l, i ∈ t.ids
  | .node i ks, j, h => by
    simp only [Tree.ids, List.mem_cons] at h
    rcases h with rfl | h
    · exact ⟨[j], Chain.here j ks, by simp [Tree.ids]⟩
    · obtain ⟨k, hk, l, hl, hs⟩ := exists_chainL ks j h
      refine ⟨i :: l, Chain.step i ks k j l hk hl, fun x hx => ?_⟩
      simp only [Tree.ids, List.mem_cons] at hx ⊢
      exact hx.imp id (fun h => mem_idsL.2 ⟨k, hk, hs x h⟩)
theorem exists_chainL : ∀ (ks : List Tree) (j : Nat), j ∈ idsL ks →
    ∃ k ∈ ks, ∃ l, Chain k j l ∧ ∀ i ∈ l, i ∈ k.ids
  | [], _, h => by simp [idsL] at h
  | k :: ks, j, h => by
    simp only [idsL, List.mem_append] at h
    rcases h with h | h
    · obtain ⟨l, hl⟩ := exists_chain k j h
      exact ⟨k, by simp, l, hl⟩
    · obtain ⟨k', hk', l, hl⟩ := exists_chainL ks j h
      exact ⟨k', by simp [hk'], l, hl⟩
end

mutual
theorem chain_cons (loc : Nat → ℝ → G) (v : Nat → ℝ) : ∀ (t : Tree) (P : G) (f : Nat → G),
    (∀ j l, Chain t j l → f j = P * (l.map (fun i => loc i (v i))).prod) → Cons loc v t P f
  | .node i ks, P, f, h => by
    have h1 : f i = P * loc i (v i) := by simpa using h i [i] (Chain.here i ks)
    refine ⟨h1, chain_consL loc v ks (f i) f fun k hk j l hc => ?_⟩
    have := h j (i :: l) (Chain.step i ks k j l hk hc)
    rw [this, h1]
    simp [mul_assoc]
theorem chain_consL (loc : Nat → ℝ → G) (v : Nat → ℝ) : ∀ (ks : List Tree) (P : G) (f : Nat → G),
    (∀ k ∈ ks, ∀ j l, Chain k j l → f j = P * (l.map (fun i => loc i (v i))).prod) →
      ConsL loc v ks P f
  | [], _, _, _ => trivial
  | k :: ks, P, f, h =>
    ⟨chain_cons loc v k P f (h k (by simp)),
      chain_consL loc v ks P f (fun k' hk' => h k' (by simp [hk']))⟩
end

theorem fk_iff (r : Robot G) (s : St G) : FK r s ↔ Cons r.loc s.value r.tree s.base s.pose :=
  ⟨fun h => chain_cons _ _ _ _ _ h, fun h _ _ hc => cons_chain hc h⟩

mutual
theorem cons_congr (loc : Nat → ℝ → G) (v w : Nat → ℝ) : ∀ (t : Tree) (P : G) (f g : Nat → G),
    (∀ j ∈ t.ids, f j = g j) → (∀ j ∈ t.ids, v j = w j) → Cons loc v t P f → Cons loc w t P g
  | .node i ks, P, f, g, hf, hv, h => by
    simp only [Tree.ids, List.mem_cons, forall_eq_or_imp] at hf hv
    refine ⟨by rw [← hf.1, ← hv.1]; exact h.1, ?_⟩
    rw [← hf.1]
    exact consL_congr loc v w ks (f i) f g hf.2 hv.2 h.2
theorem consL_congr (loc : Nat → ℝ → G) (v w : Nat → ℝ) : ∀ (ks : List Tree) (P : G) (f g : Nat → G),
    (∀ j ∈ idsL ks, f j = g j) → (∀ j ∈ idsL ks, v j = w j) → ConsL loc v ks P f → ConsL loc w ks P g
  | [], _, _, _, _, _, _ => trivial
  | k :: ks, P, f, g, hf, hv, h => by
    simp only [idsL, List.mem_append] at hf hv
    exact ⟨cons_congr loc v w k P f g (fun j hj => hf j (Or.inl hj)) (fun j hj => hv j (Or.inl hj)) h.1,
      consL_congr loc v w ks P f g (fun j hj => hf j (Or.inr hj)) (fun j hj => hv j (Or.inr hj)) h.2⟩
end

/-! ## Updating a subtree -/

mutual
theorem updTree_outside (loc : Nat → ℝ → G) (v : Nat → ℝ) : ∀ (t : Tree) (P : G) (f : Nat → G) (j : Nat),
    j ∉ t.ids → updTree loc v t P f j = f j
  | .node i ks, P, f, j, h => by
    simp only [Tree.ids, List.mem_cons, not_or] at h
    rw [updTree, updList_outside loc v ks _ _ j h.2, upd_ne _ _ h.1]
theorem updList_outside (loc : Nat → ℝ → G) (v : Nat → ℝ) : ∀ (ks : List Tree) (P : G) (f : Nat → G)
    (j : Nat), j ∉ idsL ks → updList loc v ks P f j = f j
  | [], _, _, _, _ => rfl
  | k :: ks, P, f, j, h => by
    simp only [idsL, List.mem_append, not_or] at h
    rw [updList, updList_outside loc v ks _ _ j h.2, updTree_outside loc v k _ _ j h.1]
end

mutual
theorem updTree_cons (loc : Nat → ℝ → G) (v : Nat → ℝ) : ∀ (t : Tree) (P : G) (f : Nat → G),
    t.ids.Nodup → Cons loc v t P (updTree loc v t P f)
  | .node i ks, P, f, h => by
    simp only [Tree.ids, List.nodup_cons] at h
    have e : updTree loc v (.node i ks) P f i = P * loc i (v i) := by
      rw [updTree, updList_outside loc v ks _ _ i h.1, upd_self]
    refine ⟨e, ?_⟩
    rw [e, updTree]
    exact updList_cons loc v ks _ _ h.2
theorem updList_cons (loc : Nat → ℝ → G) (v : Nat → ℝ) : ∀ (ks : List Tree) (P : G) (f : Nat → G),
    (idsL ks).Nodup → ConsL loc v ks P (updList loc v ks P f)
  | [], _, _, _ => trivial
  | k :: ks, P, f, h => by
    simp only [idsL] at h
    rw [List.nodup_append] at h
    rw [updList]
    refine ⟨?_, updList_cons loc v ks P _ h.2.1⟩
    refine cons_congr loc v v k P _ _ (fun j hj => ?_) (fun _ _ => rfl) (updTree_cons loc v k P f h.1)
    exact (updList_outside loc v ks P _ j (fun hj' => h.2.2 j hj j hj' rfl)).symm
end

mutual
theorem sub_subset (k : Nat) : ∀ (t : Tree) (j : Nat), j ∈ sub k t → j ∈ t.ids
  | .node i ks, j, h => by
    rw [sub] at h
    split at h
    · exact h
    · simp only [Tree.ids, List.mem_cons]
      exact Or.inr (subL_subset k ks j h)
theorem subL_subset (k : Nat) : ∀ (ks : List Tree) (j : Nat), j ∈ subL k ks → j ∈ idsL ks
  | [], _, h => by simp [subL] at h
  | t :: ts, j, h => by
    simp only [subL, idsL, List.mem_append] at h ⊢
    exact h.imp (sub_subset k t j) (subL_subset k ts j)
end

mutual
theorem self_sub (k : Nat) : ∀ (t : Tree), k ∈ t.ids → k ∈ sub k t
  | .node i ks, h => by
    rw [sub]
    split
    · exact h
    · rename_i hi
      simp only [Tree.ids, List.mem_cons] at h
      exact self_subL k ks (h.resolve_left fun e => hi e.symm)
theorem self_subL (k : Nat) : ∀ (ks : List Tree), k ∈ idsL ks → k ∈ subL k ks
  | [], h => by simp [idsL] at h
  | t :: ts, h => by
    simp only [subL, idsL, List.mem_append] at h ⊢
    exact h.imp (self_sub k t) (self_subL k ts)
end

mutual
theorem updAt_outside (loc : Nat → ℝ → G) (v : Nat → ℝ) (k : Nat) : ∀ (t : Tree) (P : G) (f : Nat → G)
    (j : Nat), j ∉ sub k t → updAt loc v k t P f j = f j
  | .node i ks, P, f, j, h => by
    rw [sub] at h
    rw [updAt]
    by_cases hi : i = k
    · rw [if_pos hi] at h ⊢
      exact updTree_outside loc v _ P f j h
    · rw [if_neg hi] at h ⊢
      exact updAtL_outside loc v k ks _ f j h
theorem updAtL_outside (loc : Nat → ℝ → G) (v : Nat → ℝ) (k : Nat) : ∀ (ks : List Tree) (P : G)
    (f : Nat → G) (j : Nat), j ∉ subL k ks → updAtL loc v k ks P f j = f j
  | [], _, _, _, _ => rfl
  | t :: ts, P, f, j, h => by
    simp only [subL, List.mem_append, not_or] at h
    rw [updAtL, updAtL_outside loc v k ts P _ j h.2, updAt_outside loc v k t P f j h.1]
end

mutual
theorem updAt_cons (loc : Nat → ℝ → G) (v w : Nat → ℝ) (k : Nat) : ∀ (t : Tree) (P : G) (f : Nat → G),
    t.ids.Nodup → Cons loc v t P f → (∀ j ∈ t.ids, j ∉ sub k t → w j = v j) →
      Cons loc w t P (updAt loc w k t P f)
  | .node i ks, P, f, hn, hc, hw => by
    rw [updAt]
    by_cases hi : i = k
    · rw [if_pos hi]
      exact updTree_cons loc w _ P f hn
    · rw [if_neg hi]
      simp only [Tree.ids, List.nodup_cons] at hn
      have hs : sub k (.node i ks) = subL k ks := by rw [sub, if_neg hi]
      rw [hs] at hw
      have hi2 : i ∉ subL k ks := fun h => hn.1 (subL_subset k ks i h)
      have e : updAtL loc w k ks (f i) f i = f i := updAtL_outside loc w k ks _ f i hi2
      refine ⟨?_, ?_⟩
      · rw [e, hw i (by simp [Tree.ids]) hi2]
        exact hc.1
      · rw [e]
        refine updAtL_cons loc v w k ks (f i) f hn.2 hc.2 fun j hj h => hw j ?_ h
        simp [Tree.ids, hj]
theorem updAtL_cons (loc : Nat → ℝ → G) (v w : Nat → ℝ) (k : Nat) : ∀ (ks : List Tree) (P : G)
    (f : Nat → G), (idsL ks).Nodup → ConsL loc v ks P f → (∀ j ∈ idsL ks, j ∉ subL k ks → w j = v j) →
      ConsL loc w ks P (updAtL loc w k ks P f)
  | [], _, _, _, _, _ => trivial
  | t :: ts, P, f, hn, hc, hw => by
    simp only [idsL] at hn
    rw [List.nodup_append] at hn
    rw [updAtL]
    have disj : ∀ j, j ∈ t.ids → j ∈ idsL ts → False := fun j h1 h2 => hn.2.2 j h1 j h2 rfl
    refine ⟨?_, ?_⟩
    · refine cons_congr loc w w t P _ _ (fun j hj => ?_) (fun _ _ => rfl)
        (updAt_cons loc v w k t P f hn.1 hc.1 fun j hj h => hw j (by simp [idsL, hj]) ?_)
      · exact (updAtL_outside loc w k ts P _ j (fun h => disj j hj (subL_subset k ts j h))).symm
      · simp only [subL, List.mem_append, not_or]
        exact ⟨h, fun h' => disj j hj (subL_subset k ts j h')⟩
    · refine updAtL_cons loc v w k ts P _ hn.2.1 ?_ fun j hj h => hw j (by simp [idsL, hj]) ?_
      · refine consL_congr loc v v ts P f _ (fun j hj => ?_) (fun _ _ => rfl) hc.2
        exact (updAt_outside loc w k t P f j (fun h => disj j (sub_subset k t j h) hj)).symm
      · simp only [subL, List.mem_append, not_or]
        exact ⟨fun h' => disj j (sub_subset k t j h') hj, h⟩
end

/-! ## Calls on the robot -/

theorem apply_fk (r : Robot G) (hn : Names r) (s : St G) : FK r (applyJointValues r s) :=
  (fk_iff _ _).2 (updTree_cons r.loc s.value r.tree s.base s.pose hn)

theorem apply_value (r : Robot G) (s : St G) : (applyJointValues r s).value = s.value := rfl
theorem apply_base (r : Robot G) (s : St G) : (applyJointValues r s).base = s.base := rfl

/-- Invariant of a monadic fold. -/
theorem foldlM_inv {α β : Type} {f : β → α → Option β} (P : β → Prop) :
    ∀ (l : List α) (b b' : β), P b → (∀ b a b', a ∈ l → P b → f b a = some b' → P b') →
      l.foldlM f b = some b' → P b'
  | [], b, b', h, _, e => by
    simp only [List.foldlM_nil, Option.pure_def, Option.some.injEq] at e; exact e ▸ h
  | a :: l, b, b', h, hs, e => by
    simp only [List.foldlM_cons, Option.bind_eq_bind, Option.bind_eq_some_iff] at e
    obtain ⟨c, h1, h2⟩ := e
    exact foldlM_inv P l c b' (hs b a c (by simp) h h1) (fun b a b' ha => hs b a b' (by simp [ha])) h2

/-- A fold whose steps all succeed succeeds. -/
theorem foldlM_some {α β : Type} {f : β → α → Option β} :
    ∀ (l : List α) (b : β), (∀ b, ∀ a ∈ l, ∃ b', f b a = some b') → ∃ b', l.foldlM f b = some b'
  | [], b, _ => ⟨b, rfl⟩
  | a :: l, b, h => by
    obtain ⟨c, hc⟩ := h b a (by simp)
    obtain ⟨d, hd⟩ := foldlM_some (f := f) l c (fun b a ha => h b a (by simp [ha]))
    exact ⟨d, by simp [List.foldlM_cons, hc, hd]⟩

/-- Poses consistent except that joints below `n` may have new values. -/
def FKBut (r : Robot G) (n : Nat) (s : St G) : Prop :=
  ∃ v, Cons r.loc v r.tree s.base s.pose ∧ ∀ j ∈ r.tree.ids, j ∉ sub n r.tree → s.value j = v j

theorem setNoUpdate_but {r : Robot G} {s : St G} {n : Nat} (h : FK r s) (hm : n ∈ r.tree.ids) (q : ℝ) :
    FKBut r n (setNoUpdate r n q s) := by
  refine ⟨s.value, (fk_iff _ _).1 h, fun j _ hj2 => ?_⟩
  have : j ≠ n := fun e => hj2 (e ▸ self_sub n r.tree hm)
  exact upd_ne _ _ this

theorem updatePose_step_fk {r : Robot G} (hn : Names r) {n : Nat} {s : St G} (h : FKBut r n s) :
    FK r { s with pose := updAt r.loc s.value n r.tree s.base s.pose } := by
  obtain ⟨v, h1, h2⟩ := h
  exact (fk_iff _ _).2 (updAt_cons r.loc v s.value n r.tree s.base s.pose hn h1 h2)

theorem updatePose_succ (r : Robot G) (fuel n : Nat) (s : St G) :
    updatePose r (fuel + 1) n s =
      (r.prop n).foldlM (fun (s : St G) (e : Nat × ℝ) =>
        if e.1 ∈ r.tree.ids then
          updatePose r fuel e.1 (setNoUpdate r e.1 (s.value n * e.2) s)
        else some s)
      { s with pose := updAt r.loc s.value n r.tree s.base s.pose } := rfl

theorem updatePose_fk {r : Robot G} (hn : Names r) : ∀ (fuel n : Nat) (s s' : St G),
    FKBut r n s → updatePose r fuel n s = some s' → FK r s' ∧ s'.base = s.base
  | 0, _, _, _, _, h => by simp [updatePose] at h
  | fuel + 1, n, s, s', hb, h => by
    rw [updatePose_succ] at h
    refine foldlM_inv (fun t => FK r t ∧ t.base = s.base) _ _ _ ⟨updatePose_step_fk hn hb, rfl⟩ ?_ h
    intro b e b' _ hb' he
    split at he
    · rename_i hm
      have := updatePose_fk hn fuel e.1 _ b' (setNoUpdate_but hb'.1 hm _) he
      exact ⟨this.1, this.2.trans hb'.2⟩
    · simp only [Option.some.injEq] at he; exact he ▸ hb'

theorem updatePose_noprop {r : Robot G} {n : Nat} (h : r.prop n = []) (fuel : Nat) (s : St G) :
    updatePose r (fuel + 1) n s =
      some { s with pose := updAt r.loc s.value n r.tree s.base s.pose } := by
  rw [updatePose_succ, h]; rfl

theorem updatePose_terminates {r : Robot G} {rank : Nat → Nat} (hr : Acyclic r rank) :
    ∀ (fuel n : Nat) (s : St G), rank n < fuel → ∃ s', updatePose r fuel n s = some s'
  | 0, _, _, h => by omega
  | fuel + 1, n, s, h => by
    rw [updatePose_succ]
    refine foldlM_some _ _ fun b e he => ?_
    by_cases hm : e.1 ∈ r.tree.ids
    · simp only [hm, if_true]
      exact updatePose_terminates hr fuel e.1 _ (by have := hr n e.1 e.2 he hm; omega)
    · exact ⟨b, by simp [hm]⟩

/-! ## Values after propagation -/

/-- One propagation link is satisfied. -/
def LinkOk (r : Robot G) (s : St G) (n m : Nat) (c : ℝ) : Prop :=
  s.value m = stored (r.lim m) (s.value n * c)

/-- The links of a robot between its nodes. -/
def Link (r : Robot G) (n m : Nat) (c : ℝ) : Prop := (m, c) ∈ r.prop n ∧ m ∈ r.tree.ids

theorem setNoUpdate_value_self (r : Robot G) (n : Nat) (q : ℝ) (s : St G) :
    (setNoUpdate r n q s).value n = stored (r.lim n) q := upd_self _ _ _

theorem setNoUpdate_value_ne (r : Robot G) {n j : Nat} (h : j ≠ n) (q : ℝ) (s : St G) :
    (setNoUpdate r n q s).value j = s.value j := upd_ne _ _ h

theorem updatePose_values {r : Robot G} {rank : Nat → Nat} (hr : Acyclic r rank) (ho : OneSource r) :
    ∀ (fuel n : Nat) (s s' : St G), updatePose r fuel n s = some s' →
      (∀ m c, Link r n m c → LinkOk r s' n m c) ∧
      (∀ x m c, Link r x m c → LinkOk r s x m c → LinkOk r s' x m c) ∧
      (∀ j, rank n ≤ rank j → s'.value j = s.value j)
  | 0, _, _, _, h => by simp [updatePose] at h
  | fuel + 1, n, s, s', h => by
    rw [updatePose_succ] at h
    -- generalise over the part of the list already processed
    have key : ∀ (l : List (Nat × ℝ)) (b b' : St G), (∀ e ∈ l, e ∈ r.prop n) →
        l.foldlM (fun (s : St G) (e : Nat × ℝ) =>
          if e.1 ∈ r.tree.ids then
            updatePose r fuel e.1 (setNoUpdate r e.1 (s.value n * e.2) s)
          else some s) b = some b' →
        (∀ e ∈ l, e.1 ∈ r.tree.ids → LinkOk r b' n e.1 e.2) ∧
        (∀ x m c, Link r x m c → LinkOk r b x m c → LinkOk r b' x m c) ∧
        (∀ j, rank n ≤ rank j → b'.value j = b.value j) := by
      intro l
      induction l with
      | nil =>
        intro b b' _ e
        simp only [List.foldlM_nil, Option.pure_def, Option.some.injEq] at e
        subst e
        simp
      | cons e l ih =>
        intro b b' hl he
        simp only [List.foldlM_cons, Option.bind_eq_bind, Option.bind_eq_some_iff] at he
        obtain ⟨b1, h1, h2⟩ := he
        obtain ⟨i1, i2, i3⟩ := ih b1 b' (fun e' he' => hl e' (by simp [he'])) h2
        have hel : e ∈ r.prop n := hl e (by simp)
        by_cases hm : e.1 ∈ r.tree.ids
        · simp only [hm, if_true] at h1
          have hrk := hr n e.1 e.2 hel hm
          obtain ⟨u1, u2, u3⟩ := updatePose_values hr ho fuel e.1 _ b1 h1
          have hv : ∀ j, rank e.1 ≤ rank j → j ≠ e.1 → b1.value j = b.value j := fun j hj hne => by
            rw [u3 j hj, setNoUpdate_value_ne r hne]
          have hne : n ≠ e.1 := fun h => by rw [h] at hrk; omega
          have hok : LinkOk r b1 n e.1 e.2 := by
            unfold LinkOk
            rw [u3 e.1 (le_refl _), setNoUpdate_value_self, hv n (by omega) hne]
          refine ⟨?_, ?_, ?_⟩
          · intro e' he'
            rcases List.mem_cons.1 he' with rfl | he'
            · exact fun _ => i2 _ _ _ ⟨hel, hm⟩ hok
            · exact i1 e' he'
          · intro x m c hx hb
            refine i2 x m c hx ?_
            by_cases hme : m = e.1
            · subst hme
              obtain ⟨rfl, rfl⟩ := ho x n e.1 c e.2 hx.1 hel
              exact hok
            · by_cases hxe : x = e.1
              · subst hxe
                exact u1 m c hx
              · refine u2 x m c hx ?_
                unfold LinkOk at hb ⊢
                rw [setNoUpdate_value_ne r hme, setNoUpdate_value_ne r hxe]
                exact hb
          · intro j hj
            rw [i3 j hj]
            exact hv j (by omega) (fun h => by rw [h] at hj; omega)
        · simp only [hm, if_false, Option.some.injEq] at h1
          subst h1
          refine ⟨?_, i2, i3⟩
          intro e' he' hm'
          rcases List.mem_cons.1 he' with rfl | he'
          · exact absurd hm' hm
          · exact i1 e' he' hm'
    obtain ⟨k1, k2, k3⟩ := key (r.prop n) _ s' (fun _ h => h) h
    exact ⟨fun m c hl => k1 (m, c) hl.1 hl.2, fun x m c hx hb => k2 x m c hx hb, k3⟩

/-! ## Batches of assignments -/

theorem fold_set_base (r : Robot G) : ∀ (l : List (Nat × ℝ)) (s : St G),
    (l.foldl (fun s e => setNoUpdate r e.1 e.2 s) s).base = s.base
  | [], _ => rfl
  | e :: l, s => by simp only [List.foldl_cons]; rw [fold_set_base r l]; rfl

theorem fold_set_pose (r : Robot G) : ∀ (l : List (Nat × ℝ)) (s : St G),
    (l.foldl (fun s e => setNoUpdate r e.1 e.2 s) s).pose = s.pose
  | [], _ => rfl
  | e :: l, s => by simp only [List.foldl_cons]; rw [fold_set_pose r l]; rfl

theorem lastFor_nil (n : Nat) : lastFor [] n = none := rfl

theorem lastFor_cons (e : Nat × ℝ) (l : List (Nat × ℝ)) (n : Nat) :
    lastFor (e :: l) n = (lastFor l n).or (if e.1 = n then some e.2 else none) := by
  unfold lastFor
  by_cases h : e.1 = n
  · simp only [h, List.filter_cons, beq_self_eq_true, if_true]
    generalize l.filter (fun e => e.1 == n) = f
    rcases f with _ | ⟨a, as⟩
    · rfl
    · rw [List.getLast?_cons_cons]
      rcases h2 : (a :: as).getLast? with _ | z
      · simp at h2
      · rfl
  · simp only [List.filter_cons, beq_iff_eq, h, if_false]
    simp

theorem fold_set_value (r : Robot G) (n : Nat) : ∀ (l : List (Nat × ℝ)) (s : St G),
    (l.foldl (fun s e => setNoUpdate r e.1 e.2 s) s).value n =
      match lastFor l n with
      | some q => stored (r.lim n) q
      | none => s.value n
  | [], _ => rfl
  | e :: l, s => by
    simp only [List.foldl_cons]
    rw [fold_set_value r n l, lastFor_cons]
    rcases h : lastFor l n with _ | q
    · by_cases he : e.1 = n
      · subst he; simp [setNoUpdate_value_self]
      · simp [he, setNoUpdate_value_ne r (fun h => he h.symm : n ≠ e.1)]
    · simp

open Classical in
theorem fold_set_skip (r : Robot G) : ∀ (l : List (Nat × ℝ)) (s : St G),
    l.foldl (fun s e => if e.1 ∈ r.tree.ids then setNoUpdate r e.1 e.2 s else s) s =
      (l.filter (fun e => e.1 ∈ r.tree.ids)).foldl (fun s e => setNoUpdate r e.1 e.2 s) s
  | [], _ => rfl
  | e :: l, s => by
    by_cases h : e.1 ∈ r.tree.ids
    · simp only [List.foldl_cons, h, if_true, List.filter_cons, decide_true]
      exact fold_set_skip r l _
    · simp only [List.foldl_cons, h, if_false, List.filter_cons, decide_false, Bool.false_eq_true]
      exact fold_set_skip r l _

open Classical in
theorem lastFor_filter (r : Robot G) (n : Nat) (hn : n ∈ r.tree.ids) (l : List (Nat × ℝ)) :
    lastFor (l.filter (fun e => e.1 ∈ r.tree.ids)) n = lastFor l n := by
  unfold lastFor
  rw [List.filter_filter]
  congr 2
  refine List.filter_congr fun e _ => ?_
  by_cases h : e.1 = n
  · simp [h, hn]
  · simp [h]

theorem lastFor_none {l : List (Nat × ℝ)} {n : Nat} : lastFor l n = none ↔ ∀ e ∈ l, e.1 ≠ n := by
  unfold lastFor
  simp

theorem lastFor_keys {c : Cfg} (hk : Keys c) {n : Nat} {q : ℝ} (h : (n, q) ∈ c) : lastFor c n = some q := by
  induction c with
  | nil => simp at h
  | cons e c ih =>
    unfold Keys at hk ih
    simp only [List.map_cons, List.nodup_cons, List.mem_map, not_exists, not_and] at hk
    rw [lastFor_cons]
    rcases List.mem_cons.1 h with rfl | h
    · have : lastFor c n = none := lastFor_none.2 fun e he hen => hk.1 e he hen
      simp [this]
    · rw [ih hk.2 h]; rfl

theorem fold_but (r : Robot G) {s : St G} (h : FK r s) {k : Nat} {l : List (Nat × ℝ)}
    (hl : ∀ e ∈ l, e.1 ∈ sub k r.tree) :
    FKBut r k (l.foldl (fun s e => setNoUpdate r e.1 e.2 s) s) := by
  refine ⟨s.value, ?_, fun j _ hj => ?_⟩
  · rw [fold_set_base, fold_set_pose]; exact (fk_iff _ _).1 h
  · rw [fold_set_value]
    have : lastFor l j = none := lastFor_none.2 fun e he hej => hj (hej ▸ hl e he)
    rw [this]

theorem update_fk {r : Robot G} (hn : Names r) {ns : NodeSet} (hg : GoodRoot r ns) {fuel : Nat}
    {s s' : St G} (h : FK r s) {l : List (Nat × ℝ)} (hl : ∀ e ∈ l, e.1 ∈ ns.nodes)
    (hu : ns.update r fuel (l.foldl (fun s e => setNoUpdate r e.1 e.2 s) s) = some s') : FK r s' := by
  unfold NodeSet.update at hu
  rcases hr : ns.root with _ | k
  · rw [hr] at hu
    simp only [Option.some.injEq] at hu
    exact hu ▸ apply_fk r hn _
  · rw [hr] at hu
    exact (updatePose_fk hn fuel k _ s' (fold_but r h fun e he => hg k hr e.1 (hl e he)) hu).1

/-- The assignments made by `setJointValues(config)` of a node set. -/
noncomputable def NodeSet.entries (ns : NodeSet) (c : Cfg) : List (Nat × ℝ) :=
  (ns.nodes.filter (fun n => c.has n)).map (fun n => (n, c.getConfig true n))

theorem nodeset_fold (r : Robot G) (c : Cfg) : ∀ (l : List Nat) (s : St G),
    l.foldl (fun s n => if c.has n then setNoUpdate r n (c.getConfig true n) s else s) s =
      ((l.filter (fun n => c.has n)).map (fun n => (n, c.getConfig true n))).foldl
        (fun s e => setNoUpdate r e.1 e.2 s) s
  | [], _ => rfl
  | n :: l, s => by
    by_cases h : c.has n = true
    · simp only [List.foldl_cons, h, if_true, List.filter_cons, List.map_cons]
      exact nodeset_fold r c l _
    · simp only [List.foldl_cons, h, if_false, List.filter_cons, Bool.false_eq_true]
      exact nodeset_fold r c l _

theorem entries_mem {ns : NodeSet} {c : Cfg} : ∀ e ∈ ns.entries c, e.1 ∈ ns.nodes := by
  intro e he
  simp only [NodeSet.entries, List.mem_map, List.mem_filter] at he
  obtain ⟨n, hn, rfl⟩ := he
  exact hn.1

theorem rootId_sub (t : Tree) : sub (rootId t) t = t.ids := by
  cases t with
  | node i ks => simp [sub, rootId]

/-! ## Configurations as maps -/

theorem put_find (c : Cfg) (n m : Nat) (v : ℝ) :
    (c.put n v).find m = if m = n then some v else c.find m := by
  induction c with
  | nil =>
    by_cases h : m = n
    · simp [Cfg.put, Cfg.find, h]
    · simp [Cfg.put, Cfg.find, h, Ne.symm h]
  | cons e c ih =>
    obtain ⟨k, w⟩ := e
    by_cases h1 : k = n
    · subst h1
      by_cases h2 : m = k
      · simp [Cfg.put, Cfg.find, h2]
      · simp [Cfg.put, Cfg.find, h2, Ne.symm h2]
    · by_cases h2 : k = m
      · subst h2; simp [Cfg.put, Cfg.find, h1]
      · simp [Cfg.put, Cfg.find, h1, h2, ih]

theorem put_mem_key (c : Cfg) (n m : Nat) (v : ℝ) :
    m ∈ (c.put n v).map Prod.fst ↔ m = n ∨ m ∈ c.map Prod.fst := by
  induction c with
  | nil => simp [Cfg.put]
  | cons e c ih =>
    obtain ⟨k, w⟩ := e
    by_cases h1 : k = n
    · subst h1; simp [Cfg.put]
    · simp only [Cfg.put, h1, if_false, List.map_cons, List.mem_cons, ih]
      tauto

theorem put_keys {c : Cfg} (h : Keys c) (n : Nat) (v : ℝ) : Keys (c.put n v) := by
  induction c with
  | nil => simp [Keys, Cfg.put]
  | cons e c ih =>
    obtain ⟨k, w⟩ := e
    unfold Keys at h ih ⊢
    simp only [List.map_cons, List.nodup_cons] at h
    by_cases h1 : k = n
    · subst h1; simpa [Cfg.put] using h
    · simp only [Cfg.put, h1, if_false, List.map_cons, List.nodup_cons, put_mem_key]
      exact ⟨fun e => e.elim (fun f => f.elim) h.1, ih h.2⟩

theorem find_mem {c : Cfg} {n : Nat} {v : ℝ} (h : c.find n = some v) : (n, v) ∈ c := by
  induction c with
  | nil => simp [Cfg.find] at h
  | cons e c ih =>
    obtain ⟨k, w⟩ := e
    by_cases h1 : k = n
    · simp only [Cfg.find, h1, if_true, Option.some.injEq] at h
      simp [h1, h]
    · simp only [Cfg.find, h1, if_false] at h
      exact List.mem_cons_of_mem _ (ih h)

theorem mem_find {c : Cfg} (hk : Keys c) {n : Nat} {v : ℝ} (h : (n, v) ∈ c) : c.find n = some v := by
  induction c with
  | nil => simp at h
  | cons e c ih =>
    obtain ⟨k, w⟩ := e
    unfold Keys at hk ih
    simp only [List.map_cons, List.nodup_cons] at hk
    rcases List.mem_cons.1 h with e | h
    · injection e with e1 e2
      subst e1; subst e2
      simp [Cfg.find]
    · have : k ≠ n := fun e => hk.1 (e ▸ List.mem_map.2 ⟨(n, v), h, rfl⟩)
      simp only [Cfg.find, this, if_false]
      exact ih hk.2 h

theorem has_iff (c : Cfg) (n : Nat) : c.has n = true ↔ n ∈ c.map Prod.fst := by
  simp [Cfg.has, List.any_eq_true]

theorem find_none {c : Cfg} {n : Nat} : c.find n = none ↔ n ∉ c.map Prod.fst := by
  induction c with
  | nil => simp [Cfg.find]
  | cons e c ih =>
    obtain ⟨k, w⟩ := e
    by_cases h1 : k = n
    · simp [Cfg.find, h1]
    · simp only [Cfg.find, h1, if_false, ih, List.map_cons, List.mem_cons, not_or]
      exact ⟨fun h => ⟨fun e => h1 e.symm, h⟩, fun h => h.2⟩

end Simox.Kin
