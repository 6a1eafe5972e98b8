import Verif.Rfc.Lemmas

/-!
# Lemmas: building the new robot
-/

namespace Simox.Rfc

variable {G V P B : Type} [Group G] [MulAction G P] [Zero P]

/-- New edges: from a node to a child, inverted or not. -/
abbrev Edge := ℕ × ℕ × Bool

/-- Edges of a structure do not contradict each other. -/
structure Fits (A : Edge → Prop) : Prop where
  func : ∀ {p c b p' b'}, A (p, c, b) → A (p', c, b') → p = p' ∧ b = b'
  invf : ∀ {p c c'}, A (p, c, true) → A (p, c', true) → c = c'
  excl : ∀ {p n c}, A (p, n, false) → ¬ A (n, c, true)
  irr : ∀ {p c b}, A (p, c, b) → p ≠ c

/-- What is built after the edges `S`. -/
structure Built (node : ℕ → Node G V P B) (S : Edge → Prop) (s : Build G P B) : Prop where
  par : ∀ p c, s.parent c = some p ↔ ∃ b, S (p, c, b)
  chi : ∀ p c, c ∈ s.children p ↔ ∃ b, S (p, c, b)
  chn : ∀ p, (s.children p).Nodup
  locE : ∀ p c b, S (p, c, b) → s.loc c = some (if b then (node p).loc⁻¹ else (node c).loc) ∧ s.inv c = b
  locN : ∀ c, (∀ p b, ¬ S (p, c, b)) → (s.loc c = none ∨ s.loc c = some 1) ∧ s.inv c = false
  mod1 : ∀ p c, S (p, c, true) → s.model p = (node c).model.map fun m => (m.1, (node p).loc⁻¹ * m.2)
  mod2 : ∀ p c, S (p, c, false) → s.model c = (node c).model
  mod3 : ∀ n, (∀ c, ¬ S (n, c, true)) → (∀ p, ¬ S (p, n, false)) → s.model n = none
  phy1 : ∀ p c, S (p, c, true) → s.phys p = some ((node c).phys.move (node p).loc⁻¹)
  phy2 : ∀ n, (∀ c, ¬ S (n, c, true)) → (∃ p, S (p, n, true)) → s.phys n = some Phys.empty
  phy3 : ∀ n, (∀ c, ¬ S (n, c, true)) → (∀ p, ¬ S (p, n, true)) → s.phys n = none

theorem upd_same {α : Type} (f : ℕ → α) (n : ℕ) (a : α) : upd f n a n = a := by simp [upd]
theorem upd_ne {α : Type} (f : ℕ → α) {n m : ℕ} (a : α) (h : m ≠ n) : upd f n a m = f m := by simp [upd, h]

theorem built_empty (node : ℕ → Node G V P B) : Built node (fun _ => False) Build.empty := by
  constructor <;> simp [Build.empty]

theorem built_close {node : ℕ → Node G V P B} {S : Edge → Prop} {s : Build G P B} (h : Built node S s) (p : ℕ) : Built node S (s.close p) ∧ ((s.close p).loc p).isSome := by
  unfold Build.close
  split
  · rename_i hn
    rw [Option.isNone_iff_eq_none] at hn
    have hno : ∀ p' b, ¬ S (p', p, b) := by
      intro p' b h'
      have := (h.locE _ _ _ h').1
      rw [hn] at this
      exact absurd this (by simp)
    refine ⟨⟨h.par, h.chi, h.chn, ?_, ?_, h.mod1, h.mod2, h.mod3, h.phy1, h.phy2, h.phy3⟩, by simp [upd]⟩
    · intro p' c b h'
      have hne : c ≠ p := by
        rintro rfl
        exact hno _ _ h'
      simp only [upd_ne _ _ hne]
      exact h.locE _ _ _ h'
    · intro c hc
      by_cases hcp : c = p
      · subst hcp
        simp [upd]
      · simp only [upd_ne _ _ hcp]
        exact h.locN c hc
  · rename_i hn
    exact ⟨h, by cases hs : s.loc p <;> simp_all⟩

theorem attach_new {node : ℕ → Node G V P B} {S : Edge → Prop} {s : Build G P B} (h : Built node S s) {p c : ℕ} (hpc : p ≠ c) (hno : ∀ p' b, ¬ S (p', c, b)) :
    s.attach p c = { s with parent := upd s.parent c (some p), children := upd s.children p (s.children p ++ [c]) } := by
  unfold Build.attach
  rw [if_neg hpc, if_neg, if_neg]
  · intro hs
    obtain ⟨p', hp'⟩ := Option.isSome_iff_exists.1 hs
    obtain ⟨b, hb⟩ := (h.par _ _).1 hp'
    exact hno _ _ hb
  · intro hc
    obtain ⟨b, hb⟩ := (h.chi _ _).1 hc
    exact hno _ _ hb

theorem built_edge {node : ℕ → Node G V P B} {A S : Edge → Prop} (hA : Fits A) (hS : ∀ e, S e → A e) {s : Build G P B} (h : Built node S s) {p : ℕ} {c : ℕ × Bool} (hn : A (p, c))
    (hnew : ¬ S (p, c)) : Built node (fun e => S e ∨ e = (p, c)) (s.edge node p c) := by
  obtain ⟨c, b⟩ := c
  have hpc := hA.irr hn
  have hno : ∀ p' b', ¬ S (p', c, b') := by
    intro p' b' h'
    obtain ⟨rfl, rfl⟩ := hA.func (hS _ h') hn
    exact hnew h'
  have hatt := attach_new h hpc hno
  have hpar : ∀ p' c', upd s.parent c (some p) c' = some p' ↔ ∃ b', S (p', c', b') ∨ (p', c', b') = (p, c, b) := by
    intro p' c'
    by_cases hc : c' = c
    · subst hc
      rw [upd_same]
      constructor
      · intro h'
        cases h'
        exact ⟨b, .inr rfl⟩
      · rintro ⟨b', h' | h'⟩
        · exact absurd h' (hno _ _)
        · cases h'
          rfl
    · rw [upd_ne _ _ hc, h.par]
      constructor
      · rintro ⟨b', h'⟩
        exact ⟨b', .inl h'⟩
      · rintro ⟨b', h' | h'⟩
        · exact ⟨b', h'⟩
        · cases h'
          exact absurd rfl hc
  have hchi : ∀ p' c', c' ∈ upd s.children p (s.children p ++ [c]) p' ↔ ∃ b', S (p', c', b') ∨ (p', c', b') = (p, c, b) := by
    intro p' c'
    by_cases hp : p' = p
    · subst hp
      rw [upd_same, List.mem_append, h.chi, List.mem_singleton]
      constructor
      · rintro (⟨b', h'⟩ | h')
        · exact ⟨b', .inl h'⟩
        · exact ⟨b, .inr (by rw [h'])⟩
      · rintro ⟨b', h' | h'⟩
        · exact .inl ⟨b', h'⟩
        · cases h'
          exact .inr rfl
    · rw [upd_ne _ _ hp, h.chi]
      constructor
      · rintro ⟨b', h'⟩
        exact ⟨b', .inl h'⟩
      · rintro ⟨b', h' | h'⟩
        · exact ⟨b', h'⟩
        · cases h'
          exact absurd rfl hp
  have hchn : ∀ p', (upd s.children p (s.children p ++ [c]) p').Nodup := by
    intro p'
    by_cases hp : p' = p
    · subst hp
      rw [upd_same, List.nodup_append]
      refine ⟨h.chn _, by simp, ?_⟩
      rintro a ha b' hb' rfl
      rw [List.mem_singleton.1 hb', h.chi] at ha
      obtain ⟨b'', hb''⟩ := ha
      exact hno _ _ hb''
    · rw [upd_ne _ _ hp]
      exact h.chn p'
  have hne : ∀ {p' c' b'}, S (p', c', b') → c' ≠ c := by
    rintro p' c' b' h' rfl
    exact hno _ _ h'
  cases b with
  | true =>
    unfold Build.edge
    rw [if_pos rfl, hatt]
    have hpm : s.model p = none ∧ (∀ c', ¬ S (p, c', true)) := by
      have h1 : ∀ c', ¬ S (p, c', true) := by
        intro c' h'
        have := hA.invf (hS _ h') hn
        exact hne h' this
      refine ⟨h.mod3 p h1 ?_, h1⟩
      intro p' h'
      exact hA.excl (hS _ h') hn
    refine ⟨hpar, hchi, hchn, ?_, ?_, ?_, ?_, ?_, ?_, ?_, ?_⟩
    · rintro p' c' b' (h' | h')
      · simp only [Build.inverted, upd_ne _ _ (hne h')]
        exact h.locE _ _ _ h'
      · cases h'
        simp [Build.inverted, upd]
    · intro c' h'
      have hcc : c' ≠ c := by
        rintro rfl
        exact h' p true (.inr rfl)
      simp only [Build.inverted, upd_ne _ _ hcc]
      exact h.locN c' fun p' b' h'' => h' p' b' (.inl h'')
    · rintro p' c' (h' | h')
      · have hpp : p' ≠ p := by
          rintro rfl
          exact hpm.2 _ h'
        rw [← h.mod1 _ _ h']
        simp only [Build.inverted]
        cases (node c).model with
        | none => rfl
        | some m => exact upd_ne _ _ hpp
      · cases h'
        simp only [Build.inverted]
        cases hm : (node c).model with
        | none => exact hpm.1
        | some m => exact upd_same _ _ _
    · rintro p' c' (h' | h')
      · have hpp : c' ≠ p := by
          rintro rfl
          exact hA.excl (hS _ h') hn
        rw [← h.mod2 _ _ h']
        simp only [Build.inverted]
        cases (node c).model with
        | none => rfl
        | some m => exact upd_ne _ _ hpp
      · cases h'
    · intro n h1 h2
      have hnp : n ≠ p := by
        rintro rfl
        exact h1 c (.inr rfl)
      rw [← h.mod3 n (fun c' h' => h1 c' (.inl h')) (fun p' h' => h2 p' (.inl h'))]
      simp only [Build.inverted]
      cases (node c).model with
      | none => rfl
      | some m => exact upd_ne _ _ hnp
    · rintro p' c' (h' | h')
      · have hpp : p' ≠ p := by
          rintro rfl
          exact hpm.2 _ h'
        have hv := h.phy1 _ _ h'
        simp only [Build.inverted]
        split
        · rename_i hcn
          have hpc' : p' ≠ c := by
            rintro rfl
            rw [upd_ne _ _ hpp, hv] at hcn
            exact absurd hcn (by simp)
          rw [upd_ne _ _ hpc', upd_ne _ _ hpp, hv]
        · rw [upd_ne _ _ hpp, hv]
      · cases h'
        simp only [Build.inverted]
        split
        · rw [upd_ne _ _ hpc, upd_same]
        · rw [upd_same]
    · intro n h1 h2
      have hnp : n ≠ p := by
        rintro rfl
        exact h1 c (.inr rfl)
      obtain ⟨p', h2 | h2⟩ := h2
      · have hv := h.phy2 n (fun c' h' => h1 c' (.inl h')) ⟨p', h2⟩
        have hnc := hne h2
        simp only [Build.inverted]
        split
        · rw [upd_ne _ _ hnc, upd_ne _ _ hnp, hv]
        · rw [upd_ne _ _ hnp, hv]
      · cases h2
        have hv := h.phy3 c (fun c' h' => h1 c' (.inl h')) (fun p' h' => hno p' true h')
        simp only [Build.inverted]
        rw [if_pos, upd_same]
        rw [upd_ne _ _ (Ne.symm hpc), hv]
        rfl
    · intro n h1 h2
      have hnp : n ≠ p := by
        rintro rfl
        exact h1 c (.inr rfl)
      have hnc : n ≠ c := by
        rintro rfl
        exact h2 p (.inr rfl)
      rw [← h.phy3 n (fun c' h' => h1 c' (.inl h')) (fun p' h' => h2 p' (.inl h'))]
      simp only [Build.inverted]
      split
      · rw [upd_ne _ _ hnc, upd_ne _ _ hnp]
      · rw [upd_ne _ _ hnp]
  | false =>
    unfold Build.edge
    rw [if_neg (by simp), hatt]
    have hcm : s.model c = none := h.mod3 c (fun c' h' => hA.excl hn (hS _ h')) (fun p' h' => hno p' false h')
    refine ⟨hpar, hchi, hchn, ?_, ?_, ?_, ?_, ?_, ?_, ?_, ?_⟩
    · rintro p' c' b' (h' | h')
      · simp only [Build.kept, upd_ne _ _ (hne h')]
        exact h.locE _ _ _ h'
      · cases h'
        simp [Build.kept, upd]
    · intro c' h'
      have hcc : c' ≠ c := by
        rintro rfl
        exact h' p false (.inr rfl)
      simp only [Build.kept, upd_ne _ _ hcc]
      exact h.locN c' fun p' b' h'' => h' p' b' (.inl h'')
    · rintro p' c' (h' | h')
      · have hpp : p' ≠ c := by
          rintro rfl
          exact hA.excl hn (hS _ h')
        rw [← h.mod1 _ _ h']
        simp only [Build.kept]
        cases (node c).model with
        | none => rfl
        | some m => exact upd_ne _ _ hpp
      · cases h'
    · rintro p' c' (h' | h')
      · rw [← h.mod2 _ _ h']
        simp only [Build.kept]
        cases (node c).model with
        | none => rfl
        | some m => exact upd_ne _ _ (hne h')
      · cases h'
        simp only [Build.kept]
        cases hm : (node c).model with
        | none => exact hcm
        | some m => exact upd_same _ _ _
    · intro n h1 h2
      have hnc : n ≠ c := by
        rintro rfl
        exact h2 p (.inr rfl)
      rw [← h.mod3 n (fun c' h' => h1 c' (.inl h')) (fun p' h' => h2 p' (.inl h'))]
      simp only [Build.kept]
      cases (node c).model with
      | none => rfl
      | some m => exact upd_ne _ _ hnc
    · rintro p' c' (h' | h')
      · exact h.phy1 _ _ h'
      · cases h'
    · intro n h1 h2
      obtain ⟨p', h2 | h2⟩ := h2
      · exact h.phy2 n (fun c' h' => h1 c' (.inl h')) ⟨p', h2⟩
      · cases h2
    · intro n h1 h2
      exact h.phy3 n (fun c' h' => h1 c' (.inl h')) (fun p' h' => h2 p' (.inl h'))

theorem built_congr {node : ℕ → Node G V P B} {S T : Edge → Prop} {s : Build G P B} (h : Built node S s) (hST : ∀ e, S e ↔ T e) : Built node T s := by
  have : S = T := funext fun e => propext (hST e)
  rw [← this]
  exact h

theorem built_children {node : ℕ → Node G V P B} {A : Edge → Prop} (hA : Fits A) {p : ℕ} (l : List (ℕ × Bool)) : ∀ {S : Edge → Prop} {s : Build G P B}, (∀ e, S e → A e) → Built node S s →
    (∀ c ∈ l, A (p, c)) → (l.map Prod.fst).Nodup → (∀ c ∈ l, ¬ S (p, c)) → Built node (fun e => S e ∨ ∃ c ∈ l, e = (p, c)) (l.foldl (Build.edge node p) s) := by
  induction l with
  | nil =>
    intro S s _ h _ _ _
    exact built_congr h (by simp)
  | cons c l ih =>
    intro S s hS h hl hnd hnew
    rw [List.map_cons, List.nodup_cons] at hnd
    have h1 := built_edge hA hS h (hl c (by simp)) (hnew c (by simp))
    have h2 := ih (S := fun e => S e ∨ e = (p, c)) (s := s.edge node p c) (by
        rintro e (he | rfl)
        · exact hS e he
        · exact hl c (by simp)) h1 (fun c' hc' => hl c' (by simp [hc'])) hnd.2 (by
        rintro c' hc' (h' | h')
        · exact hnew c' (by simp [hc']) h'
        · cases h'
          exact hnd.1 (List.mem_map.2 ⟨c, hc', rfl⟩))
    rw [List.foldl_cons]
    refine built_congr h2 ?_
    intro e
    constructor
    · rintro ((h' | h') | ⟨c', hc', h'⟩)
      · exact .inl h'
      · exact .inr ⟨c, by simp, h'⟩
      · exact .inr ⟨c', by simp [hc'], h'⟩
    · rintro (h' | ⟨c', hc', h'⟩)
      · exact .inl (.inl h')
      · rcases List.mem_cons.1 hc' with rfl | hc'
        · exact .inl (.inr h')
        · exact .inr ⟨c', hc', h'⟩

/-- `close` and `edge` keep that a node has a transformation. -/
theorem edge_isSome (node : ℕ → Node G V P B) (p : ℕ) (s : Build G P B) (c : ℕ × Bool) (n : ℕ) (h : (s.loc n).isSome) : ((s.edge node p c).loc n).isSome := by
  have hatt : (s.attach p c.1).loc = s.loc := by
    unfold Build.attach
    split_ifs <;> rfl
  unfold Build.edge
  split
  · simp only [Build.inverted, hatt, upd]
    split
    · rfl
    · exact h
  · simp only [Build.kept, hatt, upd]
    split
    · rfl
    · exact h

theorem fold_isSome (node : ℕ → Node G V P B) (p : ℕ) (n : ℕ) (l : List (ℕ × Bool)) : ∀ (s : Build G P B), (s.loc n).isSome → ((l.foldl (Build.edge node p) s).loc n).isSome := by
  induction l with
  | nil => exact fun s h => h
  | cons c l ih => exact fun s h => ih _ (edge_isSome node p s c n h)

omit [MulAction G P] [Zero P] in
theorem close_isSome (s : Build G P B) (p n : ℕ) (h : (s.loc n).isSome) : ((s.close p).loc n).isSome := by
  unfold Build.close
  split
  · simp only [upd]
    split
    · rfl
    · exact h
  · exact h

/-- All entries of a structure. -/
theorem built_entries {node : ℕ → Node G V P B} {A : Edge → Prop} (hA : Fits A) (l : List Def) : ∀ {S : Edge → Prop} {s : Build G P B} {done : List ℕ}, (∀ e, S e → A e) → Built node S s →
    (∀ d ∈ l, (∀ c ∈ d.children, A (d.name, c)) ∧ (d.children.map Prod.fst).Nodup) → (done ++ l.map Def.name).Nodup → (∀ e, S e → e.1 ∈ done) → (∀ n ∈ done, (s.loc n).isSome) →
    Built node (fun e => S e ∨ ∃ d ∈ l, ∃ c ∈ d.children, e = (d.name, c)) (l.foldl (Build.entry node) s) ∧
      ∀ n ∈ done ++ l.map Def.name, ((l.foldl (Build.entry node) s).loc n).isSome := by
  induction l with
  | nil =>
    intro S s done _ h _ _ _ hd
    exact ⟨built_congr h (by simp), by simpa using hd⟩
  | cons d l ih =>
    intro S s done hS h hl hnd hdone hd
    have hdd : d.name ∉ done := by
      intro hh
      rw [List.nodup_append] at hnd
      exact hnd.2.2 _ hh d.name (by simp) rfl
    have h1 := built_children hA d.children hS h (hl d (by simp)).1 (hl d (by simp)).2 (fun c _ h' => hdd (hdone _ h'))
    have h2 := built_close h1 d.name
    have h3 := ih (S := fun e => S e ∨ ∃ c ∈ d.children, e = (d.name, c)) (s := Build.entry node s d) (done := done ++ [d.name]) (by
        rintro e (he | ⟨c, hc, rfl⟩)
        · exact hS e he
        · exact (hl d (by simp)).1 c hc) h2.1 (fun d' hd' => hl d' (by simp [hd'])) (by simpa using hnd) (by
        rintro e (he | ⟨c, hc, rfl⟩)
        · exact List.mem_append_left _ (hdone e he)
        · simp) (by
        intro n hn
        rcases List.mem_append.1 hn with hn | hn
        · exact close_isSome _ _ _ (fold_isSome _ _ _ _ _ (hd n hn))
        · rw [List.mem_singleton.1 hn]
          exact h2.2)
    rw [List.foldl_cons]
    refine ⟨built_congr h3.1 ?_, by simpa using h3.2⟩
    intro e
    constructor
    · rintro ((h' | h') | ⟨d', hd', h'⟩)
      · exact .inl h'
      · exact .inr ⟨d, by simp, h'⟩
      · exact .inr ⟨d', by simp [hd'], h'⟩
    · rintro (h' | ⟨d', hd', h'⟩)
      · exact .inl (.inl h')
      · rcases List.mem_cons.1 hd' with rfl | hd'
        · exact .inl (.inr h')
        · exact .inr ⟨d', hd', h'⟩

end Simox.Rfc
