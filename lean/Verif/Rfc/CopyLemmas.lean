import Verif.Rfc.CopyModel
import Verif.Rfc.Lemmas
import Mathlib.Algebra.Order.BigOperators.Group.List

/-!
# Lemmas about copies of parts
-/

namespace Simox.Rfc

variable {G V P B : Type}

/-- What is there after copying the branches that start with the nodes `done`, which are children of `n`. -/
structure Branches (r : Robot G V P B) (n : ℕ) (s : Links) (done : List ℕ) (s' : Links) : Prop where
  par : ∀ c d, d ∈ done → Below r c d → s'.parent c = r.parent c
  parO : ∀ c, (∀ d ∈ done, ¬ Below r c d) → s'.parent c = s.parent c
  chi : ∀ c d, d ∈ done → Below r c d → s'.children c = r.children c
  chiO : ∀ c, c ≠ n → (∀ d ∈ done, ¬ Below r c d) → s'.children c = s.children c
  chiN : s'.children n = s.children n ++ done
  mem : ∀ m, m ∈ s'.ids ↔ m ∈ s.ids ∨ ∃ d ∈ done, Below r m d
  nodup : s.ids.Nodup → s'.ids.Nodup

/-- What is there after copying the branch that starts with `n`. -/
structure Copied (r : Robot G V P B) (n : ℕ) (s s' : Links) : Prop where
  par : ∀ c, Below r c n → c ≠ n → s'.parent c = r.parent c
  parN : s'.parent n = s.parent n
  parO : ∀ c, ¬ Below r c n → s'.parent c = s.parent c
  chi : ∀ c, Below r c n → s'.children c = r.children c
  chiO : ∀ c, ¬ Below r c n → s'.children c = s.children c
  mem : ∀ m, m ∈ s'.ids ↔ m ∈ s.ids ∨ Below r m n
  nodup : s.ids.Nodup → s'.ids.Nodup

/-- Nothing below `n` is there. -/
def Free (r : Robot G V P B) (n : ℕ) (s : Links) : Prop := ∀ c, Below r c n → c ∉ s.ids ∧ s.parent c = none ∧ s.children c = []

theorem below_last {r : Robot G V P B} {m n : ℕ} (h : Below r m n) (hne : m ≠ n) : ∃ c, r.parent c = some n ∧ Below r m c := by
  rcases Relation.ReflTransGen.cases_tail h with h | ⟨c, h1, h2⟩
  · exact absurd h.symm hne
  · exact ⟨c, h2, h1⟩

theorem branch_step {r : Robot G V P B} (ht : IsTree r) {n c : ℕ} {s s1 s2 : Links} {done : List ℕ} (hf : Free r n s) (hd : ∀ d ∈ done, r.parent d = some n) (hc : r.parent c = some n) (hnew : c ∉ done)
    (h1 : Branches r n s done s1) (h2 : Copied r c s1 s2) : Branches r n s (done ++ [c]) (s2.attach n c) := by
  have hsep : ∀ m d, d ∈ done → Below r m d → ¬ Below r m c := by
    intro m d hdd h h'
    exact hnew (below_unique ht (hd d hdd) hc h h' ▸ hdd)
  have hnc : ¬ Below r n c := not_below_parent ht hc
  have hne : n ≠ c := fun h => hnc (h ▸ below_refl r n)
  have hbc : Below r c n := below_head hc (below_refl r n)
  have hchn : s2.children n = done := by
    rw [h2.chiO n hnc, h1.chiN, (hf n (below_refl r n)).2.2, List.nil_append]
  have hpc : s2.parent c = none := by
    rw [h2.parN, h1.parO c (fun d hdd h => hsep c d hdd h (below_refl r c))]
    exact (hf c hbc).2.1
  have hat : s2.attach n c = { s2 with parent := upd s2.parent c (some n), children := upd s2.children n (s2.children n ++ [c]) } := by
    unfold Links.attach
    rw [if_neg hne, if_neg (by rw [hchn]; exact hnew), if_neg (by simp [hpc])]
  rw [hat]
  constructor
  · intro m d hdd hb
    by_cases hm : m = c
    · subst hm
      simp [upd, hc]
    · simp only [upd, if_neg hm]
      rcases List.mem_append.1 hdd with hdd | hdd
      · rw [h2.parO m (hsep m d hdd hb)]
        exact h1.par m d hdd hb
      · rw [List.mem_singleton.1 hdd] at hb
        exact h2.par m hb hm
  · intro m hm
    have h3 : ¬ Below r m c := hm c (by simp)
    have hmc : m ≠ c := fun h => h3 (h ▸ below_refl r m)
    simp only [upd, if_neg hmc]
    rw [h2.parO m h3, h1.parO m (fun d hdd => hm d (List.mem_append_left _ hdd))]
  · intro m d hdd hb
    have hmn : m ≠ n := by
      rintro rfl
      rcases List.mem_append.1 hdd with hdd | hdd
      · exact not_below_parent ht (hd d hdd) hb
      · rw [List.mem_singleton.1 hdd] at hb
        exact hnc hb
    simp only [upd, if_neg hmn]
    rcases List.mem_append.1 hdd with hdd | hdd
    · rw [h2.chiO m (hsep m d hdd hb)]
      exact h1.chi m d hdd hb
    · rw [List.mem_singleton.1 hdd] at hb
      exact h2.chi m hb
  · intro m hmn hm
    simp only [upd, if_neg hmn]
    rw [h2.chiO m (hm c (by simp)), h1.chiO m hmn (fun d hdd => hm d (List.mem_append_left _ hdd))]
  · simp only [upd, if_true, hchn]
    rw [(hf n (below_refl r n)).2.2, List.nil_append]
  · intro m
    simp only
    rw [h2.mem, h1.mem]
    constructor
    · rintro ((h | ⟨d, hdd, h⟩) | h)
      · exact .inl h
      · exact .inr ⟨d, List.mem_append_left _ hdd, h⟩
      · exact .inr ⟨c, by simp, h⟩
    · rintro (h | ⟨d, hdd, h⟩)
      · exact .inl (.inl h)
      · rcases List.mem_append.1 hdd with hdd | hdd
        · exact .inl (.inr ⟨d, hdd, h⟩)
        · rw [List.mem_singleton.1 hdd] at h
          exact .inr h
  · intro h
    exact h2.nodup (h1.nodup h)

theorem branches_nil (r : Robot G V P B) (n : ℕ) (s : Links) : Branches r n s [] s :=
  ⟨by simp, by simp, by simp, by simp, by simp, by simp, id⟩

theorem copyNode_spec {r : Robot G V P B} (ht : IsTree r) {rank : ℕ → ℕ} (hr : ∀ c p, r.parent c = some p → rank p < rank c) {M : ℕ} (hM : ∀ n ∈ r.ids, rank n ≤ M) (k : ℕ) :
    ∀ (s : Links) (n : ℕ), n ∈ r.ids → M < k + rank n → Free r n s → ∃ s', copyNode r k s n = some s' ∧ Copied r n s s' := by
  induction k with
  | zero =>
    intro s n hn hk _
    have := hM n hn
    omega
  | succ k ih =>
    intro s n hn hk hf
    have key : ∀ (rest done : List ℕ) (s1 : Links), done ++ rest = r.children n → Branches r n s done s1 →
        ∃ s2, rest.foldlM (fun s c => (copyNode r k s c).map fun s => s.attach n c) s1 = some s2 ∧ Branches r n s (r.children n) s2 := by
      intro rest
      induction rest with
      | nil =>
        intro done s1 h1 h2
        rw [List.append_nil] at h1
        exact ⟨s1, rfl, h1 ▸ h2⟩
      | cons c rest ih' =>
        intro done s1 h1 h2
        have hall : ∀ d ∈ done ++ c :: rest, r.parent d = some n := by
          intro d hd
          rw [h1] at hd
          exact (ht.children_iff n d).1 hd
        have hnd : (done ++ c :: rest).Nodup := by
          rw [h1]
          exact ht.children_nodup n
        have hcd : c ∉ done := by
          intro h
          exact (List.nodup_append.1 hnd).2.2 c h c (by simp) rfl
        have hc : r.parent c = some n := hall c (by simp)
        have hdp : ∀ d ∈ done, r.parent d = some n := fun d hd => hall d (List.mem_append_left _ hd)
        have hfc : Free r c s1 := by
          intro m hm
          have hmn : Below r m n := below_step hm hc
          have hsep : ∀ d ∈ done, ¬ Below r m d := fun d hd h => hcd (below_unique ht (hdp d hd) hc h hm ▸ hd)
          have hne : m ≠ n := by
            rintro rfl
            exact not_below_parent ht hc hm
          obtain ⟨f1, f2, f3⟩ := hf m hmn
          refine ⟨?_, ?_, ?_⟩
          · rw [h2.mem]
            rintro (h | ⟨d, hd, h⟩)
            · exact f1 h
            · exact hsep d hd h
          · rw [h2.parO m hsep, f2]
          · rw [h2.chiO m hne hsep, f3]
        obtain ⟨s2, h3, h4⟩ := ih s1 c (ht.parent_mem _ _ hc).1 (by have := hr c n hc; omega) hfc
        obtain ⟨s3, h5, h6⟩ := ih' (done ++ [c]) (s2.attach n c) (by rw [List.append_assoc]; exact h1) (branch_step ht hf hdp hc hcd h2 h4)
        refine ⟨s3, ?_, h6⟩
        rw [List.foldlM_cons, h3]
        exact h5
    obtain ⟨s2, h1, h2⟩ := key (r.children n) [] s rfl (branches_nil r n s)
    refine ⟨{ s2 with ids := s2.ids ++ [n] }, ?_, ?_⟩
    · rw [copyNode, h1]
      rfl
    · have hself : ∀ d ∈ r.children n, ¬ Below r n d := fun d hd => not_below_parent ht ((ht.children_iff n d).1 hd)
      have hout : ∀ m, ¬ Below r m n → ∀ d ∈ r.children n, ¬ Below r m d := fun m hm d hd h => hm (below_step h ((ht.children_iff n d).1 hd))
      constructor
      · intro c hb hne
        obtain ⟨d, hd, hb'⟩ := below_last hb hne
        exact h2.par c d ((ht.children_iff n d).2 hd) hb'
      · exact h2.parO n hself
      · intro c hc
        exact h2.parO c (hout c hc)
      · intro c hb
        by_cases hne : c = n
        · subst hne
          show s2.children c = _
          rw [h2.chiN, (hf c hb).2.2, List.nil_append]
        · obtain ⟨d, hd, hb'⟩ := below_last hb hne
          exact h2.chi c d ((ht.children_iff n d).2 hd) hb'
      · intro c hc
        exact h2.chiO c (fun h => hc (h ▸ below_refl r c)) (hout c hc)
      · intro m
        simp only [List.mem_append, List.mem_singleton]
        rw [h2.mem]
        constructor
        · rintro ((h | ⟨d, hd, h⟩) | rfl)
          · exact .inl h
          · exact .inr (below_step h ((ht.children_iff n d).1 hd))
          · exact .inr (below_refl r _)
        · rintro (h | h)
          · exact .inl (.inl h)
          · by_cases hne : m = n
            · exact .inr hne
            · obtain ⟨d, hd, hb'⟩ := below_last h hne
              exact .inl (.inr ⟨d, (ht.children_iff n d).2 hd, hb'⟩)
      · intro h
        rw [List.nodup_append]
        refine ⟨h2.nodup h, by simp, ?_⟩
        intro a ha b hb hab
        rw [List.mem_singleton] at hb
        subst hb
        subst hab
        rcases (h2.mem _).1 ha with h' | ⟨d, hd, h'⟩
        · exact (hf _ (below_refl r _)).1 h'
        · exact hself d hd h'

theorem copyNode_more {r : Robot G V P B} (k : ℕ) : ∀ {s s' : Links} {n : ℕ}, copyNode r k s n = some s' → copyNode r (k + 1) s n = some s' := by
  induction k with
  | zero =>
    intro s s' n h
    exact absurd h (by simp [copyNode])
  | succ k ih =>
    intro s s' n h
    rw [copyNode] at h ⊢
    obtain ⟨s2, h1, h2⟩ := Option.map_eq_some_iff.1 h
    rw [Option.map_eq_some_iff]
    refine ⟨s2, ?_, h2⟩
    clear h h2
    generalize r.children n = cs at h1 ⊢
    induction cs generalizing s with
    | nil => exact h1
    | cons c cs ih' =>
      rw [List.foldlM_cons] at h1 ⊢
      rcases h3 : copyNode r k s c with _ | s3
      · rw [h3] at h1
        exact absurd h1 (by simp)
      · rw [h3] at h1
        rw [ih h3]
        exact ih' h1

theorem copyNode_le {r : Robot G V P B} {k k' : ℕ} (hk : k ≤ k') {s s' : Links} {n : ℕ} (h : copyNode r k s n = some s') : copyNode r k' s n = some s' := by
  induction hk with
  | refl => exact h
  | step _ ih => exact copyNode_more _ ih

theorem exists_bound (rank : ℕ → ℕ) (l : List ℕ) : ∃ M, ∀ n ∈ l, rank n ≤ M := by
  refine ⟨(l.map rank).sum, ?_⟩
  intro n hn
  exact List.le_sum_of_mem (List.mem_map.2 ⟨n, hn, rfl⟩)

/-- The part of the robot `r` that starts at `start`. -/
structure Part (r : Robot G V P B) (f : ℕ → Node G V P B) (start : ℕ) (r' : Robot G V P B) : Prop where
  root : r'.root = start
  mem : ∀ n, n ∈ r'.ids ↔ Below r n start
  nodup : r'.ids.Nodup
  par : ∀ c p, r'.parent c = some p ↔ r.parent c = some p ∧ Below r p start
  chi : ∀ p ∈ r'.ids, r'.children p = r.children p
  chiO : ∀ p, p ∉ r'.ids → r'.children p = []
  node : r'.node = f

theorem part_exists {r : Robot G V P B} (ht : IsTree r) (s : Scale G P B) (z : V) {start : ℕ} (hs : start ∈ r.ids) :
    ∃ fuel, ∀ k, fuel ≤ k → ∃ r', extractSubPart s z r k start = some r' ∧ Part r (fun n => cloneNode s z (r.node n)) start r' := by
  obtain ⟨rank, hr⟩ := ht.acyclic
  obtain ⟨M, hM⟩ := exists_bound rank r.ids
  refine ⟨M + 1, ?_⟩
  intro k hk
  obtain ⟨l, h1, h2⟩ := copyNode_spec ht hr hM k Links.empty start hs (by omega) (by
    intro c _
    exact ⟨by simp [Links.empty], rfl, rfl⟩)
  refine ⟨⟨l.ids, start, l.parent, l.children, fun n => cloneNode s z (r.node n)⟩, ?_, ?_⟩
  · rw [extractSubPart, if_pos hs, h1]
    rfl
  · have hmem : ∀ n, n ∈ l.ids ↔ Below r n start := by
      intro n
      rw [h2.mem]
      simp [Links.empty]
    refine ⟨rfl, hmem, h2.nodup (by simp [Links.empty]), ?_, ?_, ?_, rfl⟩
    · intro c p
      simp only
      by_cases hb : Below r c start
      · by_cases hc : c = start
        · subst hc
          rw [h2.parN]
          constructor
          · intro h
            exact absurd h (by simp [Links.empty])
          · rintro ⟨h, h'⟩
            exact absurd h' (not_below_parent ht h)
        · rw [h2.par c hb hc]
          constructor
          · intro h
            refine ⟨h, ?_⟩
            rcases below_cases hb with h' | ⟨p', hp, h'⟩
            · exact absurd h' hc
            · rw [h] at hp
              cases hp
              exact h'
          · exact And.left
      · rw [h2.parO c hb]
        constructor
        · intro h
          exact absurd h (by simp [Links.empty])
        · rintro ⟨h, h'⟩
          exact absurd (below_head h h') hb
    · intro p hp
      exact h2.chi p ((hmem p).1 hp)
    · intro p hp
      exact h2.chiO p (fun h => hp ((hmem p).2 h))

theorem part_of {r : Robot G V P B} (ht : IsTree r) {s : Scale G P B} {z : V} {start k : ℕ} {r' : Robot G V P B} (h : extractSubPart s z r k start = some r') :
    start ∈ r.ids ∧ Part r (fun n => cloneNode s z (r.node n)) start r' := by
  by_cases hs : start ∈ r.ids
  · refine ⟨hs, ?_⟩
    obtain ⟨f, hf⟩ := part_exists ht s z hs
    obtain ⟨r'', h1, h2⟩ := hf (max f k) (le_max_left _ _)
    rw [extractSubPart, if_pos hs] at h h1
    obtain ⟨l, h3, h4⟩ := Option.map_eq_some_iff.1 h
    rw [copyNode_le (le_max_right f k) h3, Option.map_some] at h1
    cases h1
    rw [← h4]
    exact h2
  · rw [extractSubPart, if_neg hs] at h
    exact absurd h (by simp)

end Simox.Rfc
