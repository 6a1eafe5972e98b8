import Verif.Rfc.RerootProps

/-!
# C139: the chain between two nodes, from its other end

`cloneChangeStructure` with two nodes gives the nodes between them, with the second one as the root.
-/

namespace Simox.Rfc

variable {G V P B : Type} [Group G] [MulAction G P] [Zero P] [Neg V]

/-- The nodes on the way up from a node to another one. -/
def WayUp (r : Robot G V P B) (start stop : ℕ) (l : List ℕ) : Prop :=
  l.head? = some stop ∧ l.getLast? = some start ∧ l.IsChain (fun a b => r.parent a = some b)

omit [Group G] [MulAction G P] [Zero P] [Neg V] in
theorem climb_way {r : Robot G V P B} {start : ℕ} (k : ℕ) : ∀ {n : ℕ} {l : List ℕ}, climb r start k n = some l → WayUp r start n l ∧ ∃ t, l = n :: t := by
  induction k with
  | zero =>
    intro n l h
    exact absurd h (by simp [climb])
  | succ k ih =>
    intro n l h
    rw [climb] at h
    split at h
    · rename_i hn
      cases h
      subst hn
      exact ⟨⟨rfl, rfl, by simp⟩, [], rfl⟩
    · rcases hp : r.parent n with _ | p
      · rw [hp] at h
        exact absurd h (by simp)
      · rw [hp] at h
        obtain ⟨l', h1, rfl⟩ := Option.map_eq_some_iff.1 h
        obtain ⟨⟨h2, h3, h4⟩, t, rfl⟩ := ih h1
        refine ⟨⟨rfl, ?_, ?_⟩, _, rfl⟩
        · rw [List.getLast?_cons_cons]
          exact h3
        · rw [List.isChain_cons_cons]
          exact ⟨hp, h4⟩

omit [Group G] [MulAction G P] [Zero P] [Neg V] in
theorem climb_ends {r : Robot G V P B} {start : ℕ} : ∀ {n : ℕ}, Below r n start → ∃ fuel, ∀ k, fuel ≤ k → (climb r start k n).isSome := by
  intro n h
  induction h using Relation.ReflTransGen.head_induction_on with
  | refl =>
    refine ⟨1, ?_⟩
    intro k hk
    obtain ⟨k, rfl⟩ := Nat.exists_eq_add_of_le' hk
    simp [climb]
  | @head n p hp hb ih =>
    obtain ⟨f, ih⟩ := ih
    refine ⟨f + 1, ?_⟩
    intro k hk
    obtain ⟨k, rfl⟩ := Nat.exists_eq_add_of_le' (show 1 ≤ k by omega)
    rw [climb]
    split
    · rfl
    · rw [hp]
      have := ih k (by omega)
      simpa using this

omit [Group G] [MulAction G P] [Zero P] [Neg V] in
theorem way_below {r : Robot G V P B} : ∀ {l : List ℕ} {n : ℕ}, (n :: l).IsChain (fun a b => r.parent a = some b) → ∀ m ∈ n :: l, Below r n m := by
  intro l
  induction l with
  | nil =>
    intro n _ m hm
    rw [List.mem_singleton.1 hm]
    exact below_refl r n
  | cons a l ih =>
    intro n h m hm
    rw [List.isChain_cons_cons] at h
    rcases List.mem_cons.1 hm with rfl | hm
    · exact below_refl r m
    · exact below_head h.1 (ih h.2 m hm)

omit [Group G] [MulAction G P] [Zero P] [Neg V] in
theorem way_nodup {r : Robot G V P B} (ht : IsTree r) : ∀ {l : List ℕ}, l.IsChain (fun a b => r.parent a = some b) → l.Nodup := by
  intro l
  induction l with
  | nil => simp
  | cons a l ih =>
    intro h
    rw [List.nodup_cons]
    cases l with
    | nil => simp
    | cons b l =>
      rw [List.isChain_cons_cons] at h
      exact ⟨fun ha => not_below_parent ht h.1 (way_below h.2 a ha), ih h.2⟩

omit [Group G] [MulAction G P] [Zero P] [Neg V] in
theorem chainDefs_spec {r : Robot G V P B} {start : ℕ} : ∀ {l : List ℕ}, l.IsChain (fun a b => r.parent a = some b) → l.getLast? = some start → l.Nodup →
    (chainDefs l).map Def.name = l ∧ ∀ d ∈ chainDefs l, (d.children.map Prod.fst).Nodup ∧ ∀ c b, (c, b) ∈ d.children ↔ b = true ∧ d.name ≠ start ∧ r.parent d.name = some c := by
  intro l
  induction l with
  | nil => simp
  | cons n l ih =>
    intro h1 h2 h3
    cases l with
    | nil =>
      cases h2
      refine ⟨rfl, ?_⟩
      intro d hd
      rw [chainDefs, List.mem_singleton] at hd
      subst hd
      simp
    | cons m l =>
      rw [List.isChain_cons_cons] at h1
      rw [List.nodup_cons] at h3
      rw [List.getLast?_cons_cons] at h2
      obtain ⟨ih1, ih2⟩ := ih h1.2 h2 h3.2
      refine ⟨by rw [chainDefs, List.map_cons, ih1], ?_⟩
      intro d hd
      rw [chainDefs, List.mem_cons] at hd
      rcases hd with rfl | hd
      · refine ⟨by simp, ?_⟩
        intro c b
        have hns : n ≠ start := by
          rintro rfl
          exact h3.1 (List.mem_of_getLast? h2)
        simp only [List.mem_singleton, Prod.mk.injEq, h1.1, Option.some.injEq]
        constructor
        · rintro ⟨rfl, rfl⟩
          exact ⟨rfl, hns, rfl⟩
        · rintro ⟨rfl, _, rfl⟩
          exact ⟨rfl, rfl⟩
      · exact ih2 d hd

/-- The chain is there whenever the second node is below the first; it has the nodes between the two, each one as the parent of the one that was its parent. For the
same joint values, up to one motion `X` of the whole, every node is where it was before the motion of its joint, and the shape of the old parent of a node is where
it was. -/
theorem C139_chain {r : Robot G V P B} (ht : IsTree r) {z : V} (hdh : ∀ n ∈ r.ids, DhOk z (r.node n)) {start stop : ℕ} (hs : stop ∈ r.ids) (hne : start ≠ stop) (hb : Below r stop start) :
    ∃ fuel, ∀ k, fuel ≤ k → ∃ r', cloneChain z r k start stop = some r' ∧ r'.root = stop ∧
      (∀ n, n ∈ r'.ids ↔ Below r stop n ∧ Below r n start) ∧
      (∀ c p, r'.parent c = some p ↔ Below r stop p ∧ Below r c start ∧ r.parent p = some c) ∧
      ∀ (m : Motion G V) (q : ℕ → ℝ) (base base' : G) (g g' : ℕ → G), Poses m r base q g → Poses m r' base' q g' →
        ∃ X : G, (∀ n ∈ r'.ids, g' n * m.at r q n = X * g n) ∧
          ∀ n ∈ r'.ids, n ≠ start → ∃ p, r.parent n = some p ∧ ∀ b d, (r.node p).model = some (b, d) → Shown r' g' b (X * (g p * d)) := by
  obtain ⟨fuel, hfuel⟩ := climb_ends hb
  refine ⟨fuel, ?_⟩
  intro k hk
  obtain ⟨l, hl⟩ := Option.isSome_iff_exists.1 (hfuel k hk)
  obtain ⟨⟨hw1, hw2, hw3⟩, t, hlt⟩ := climb_way k hl
  have hnd := way_nodup ht hw3
  obtain ⟨hd1, hd2⟩ := chainDefs_spec hw3 hw2 hnd
  have hmem_ids : ∀ n, Below r stop n → n ∈ r.ids := by
    intro n hn
    rcases Relation.ReflTransGen.cases_tail hn with h | ⟨c, _, h⟩
    · rw [h]
      exact hs
    · exact (ht.parent_mem _ _ h).2
  have hbelow : ∀ n ∈ l, Below r stop n := by
    intro n hn
    rw [hlt] at hn hw3
    exact way_below hw3 n hn
  have hlast : ∀ (l : List ℕ), l.IsChain (fun a b => r.parent a = some b) → l.getLast? = some start → ∀ n ∈ l, Below r n start := by
    intro l
    induction l with
    | nil => simp
    | cons a l ih =>
      intro h1 h2 n hn
      cases l with
      | nil =>
        cases h2
        rw [List.mem_singleton.1 hn]
        exact below_refl r _
      | cons b l =>
        rw [List.isChain_cons_cons] at h1
        rw [List.getLast?_cons_cons] at h2
        rcases List.mem_cons.1 hn with rfl | hn
        · exact below_head h1.1 (ih h1.2 h2 b (by simp))
        · exact ih h1.2 h2 n hn
  have hconv : ∀ n, Below r stop n → Below r n start → n ∈ l := by
    have key : ∀ (l : List ℕ) (a : ℕ), (a :: l).IsChain (fun a b => r.parent a = some b) → (a :: l).getLast? = some start → ∀ n, Below r a n → Below r n start → n ∈ a :: l := by
      intro l
      induction l with
      | nil =>
        intro a _ h2 n h3 h4
        cases h2
        rcases below_cases h3 with rfl | ⟨p, hp, h5⟩
        · simp
        · exact absurd (below_trans h5 h4) (not_below_parent ht hp)
      | cons b l ih =>
        intro a h1 h2 n h3 h4
        rw [List.isChain_cons_cons] at h1
        rw [List.getLast?_cons_cons] at h2
        rcases below_cases h3 with rfl | ⟨p, hp, h5⟩
        · simp
        · rw [h1.1] at hp
          cases hp
          exact List.mem_cons_of_mem _ (ih b h1.2 h2 n h5 h4)
    intro n h3 h4
    rw [hlt] at hw3 hw2 ⊢
    exact key t stop hw3 hw2 n h3 h4
  have hmem : ∀ n, n ∈ l ↔ Below r stop n ∧ Below r n start := fun n => ⟨fun h => ⟨hbelow n h, hlast l hw3 hw2 n h⟩, fun h => hconv n h.1 h.2⟩
  let A : Edge → Prop := fun e => e.2.2 = true ∧ e.1 ∈ l ∧ e.1 ≠ start ∧ r.parent e.1 = some e.2.1
  have hA : Fits A := by
    constructor
    · rintro p c b p' b' ⟨h1, h2, _, h3⟩ ⟨h1', h2', _, h3'⟩
      simp only at h1 h2 h3 h1' h2' h3'
      exact ⟨below_unique ht h3 h3' (hbelow _ h2) (hbelow _ h2'), by rw [h1, h1']⟩
    · rintro p c c' ⟨_, _, _, h3⟩ ⟨_, _, _, h3'⟩
      simp only at h3 h3'
      rw [h3] at h3'
      exact Option.some.inj h3'
    · rintro p n c ⟨h, _⟩
      exact absurd h (by simp)
    · rintro p c b ⟨_, _, _, h⟩ rfl
      exact no_two_cycle ht h h
  have hpl : ∀ p c, p ∈ l → p ≠ start → r.parent p = some c → c ∈ l := by
    intro p c h1 h2 h3
    rw [hmem] at h1 ⊢
    refine ⟨below_step h1.1 h3, ?_⟩
    rcases below_cases h1.2 with h | ⟨c', hc, h⟩
    · exact absurd h h2
    · rw [h3] at hc
      cases hc
      exact h
  have hnames : ∀ n, n ∈ (chainDefs l).flatMap (fun d => d.name :: d.children.map Prod.fst) ↔ n ∈ l := by
    intro n
    rw [List.mem_flatMap]
    constructor
    · rintro ⟨d, hd, hn⟩
      have hdl : d.name ∈ l := by
        rw [← hd1]
        exact List.mem_map.2 ⟨d, hd, rfl⟩
      rcases List.mem_cons.1 hn with rfl | hn
      · exact hdl
      · obtain ⟨⟨c, b⟩, hc, rfl⟩ := List.mem_map.1 hn
        obtain ⟨_, h2, h3⟩ := ((hd2 d hd).2 c b).1 hc
        exact hpl _ _ hdl h2 h3
    · intro hn
      rw [← hd1] at hn
      obtain ⟨d, hd, rfl⟩ := List.mem_map.1 hn
      exact ⟨d, hd, by simp⟩
  have hcond : stop ∈ r.ids ∧ ∀ n ∈ (chainDefs l).flatMap (fun d => d.name :: d.children.map Prod.fst), n ∈ r.ids :=
    ⟨hs, fun n hn => hmem_ids n (hbelow n ((hnames n).1 hn))⟩
  obtain ⟨hbu, hsome⟩ := built_entries (node := fun n => cloneNode (Scale.one G P B) z (r.node n)) hA (chainDefs l) (S := fun _ => False) (s := Build.empty) (done := []) (by simp) (built_empty _)
    (by
      intro d hd
      refine ⟨?_, (hd2 d hd).1⟩
      rintro ⟨c, b⟩ hc
      obtain ⟨h1, h2, h3⟩ := ((hd2 d hd).2 c b).1 hc
      refine ⟨h1, ?_, h2, h3⟩
      simp only
      rw [← hd1]
      exact List.mem_map.2 ⟨d, hd, rfl⟩) (by simpa [hd1] using hnd) (by simp) (by simp)
  have hbu := built_congr hbu (T := A) (by
    rintro ⟨p, c, b⟩
    constructor
    · rintro (h | ⟨d, hd, ⟨c', b'⟩, hc, h⟩)
      · exact h.elim
      · cases h
        obtain ⟨h1, h2, h3⟩ := ((hd2 d hd).2 _ _).1 hc
        refine ⟨h1, ?_, h2, h3⟩
        simp only
        rw [← hd1]
        exact List.mem_map.2 ⟨d, hd, rfl⟩
    · rintro ⟨h1, h2, h3, h4⟩
      right
      simp only at h1 h2 h3 h4
      rw [← hd1] at h2
      obtain ⟨d, hd, rfl⟩ := List.mem_map.1 h2
      exact ⟨d, hd, (c, b), ((hd2 d hd).2 c b).2 ⟨h1, h3, h4⟩, rfl⟩)
  simp only [List.nil_append, hd1] at hsome
  set node : ℕ → Node G V P B := fun n => cloneNode (Scale.one G P B) z (r.node n) with hnode
  set s := (chainDefs l).foldl (Build.entry node) Build.empty with hsd
  have hnod : ∀ n ∈ r.ids, node n = r.node n := fun n hn => cloneNode_one (hdh n hn)
  have hstop : stop ∈ l := by
    rw [hlt]
    simp
  have hids : ∀ n, n ∈ (stop :: (chainDefs l).flatMap fun d => d.name :: d.children.map Prod.fst).dedup ↔ n ∈ l := by
    intro n
    rw [List.mem_dedup, List.mem_cons, hnames]
    constructor
    · rintro (rfl | h)
      · exact hstop
      · exact h
    · exact .inr
  have hst : start ∈ r.ids := hmem_ids start hb
  refine ⟨⟨(stop :: (chainDefs l).flatMap fun d => d.name :: d.children.map Prod.fst).dedup, stop, s.parent, s.children, fun n => s.finish n (node n)⟩, ?_, rfl, ?_, ?_, ?_⟩
  · unfold cloneChain
    rw [if_pos ⟨hst, hs, hne⟩, hl, Option.bind_some, restructure]
    simp only
    rw [if_pos hcond]
  · intro n
    rw [hids, hmem]
  · intro c p
    rw [hbu.par]
    constructor
    · rintro ⟨b, _, h2, h3, h4⟩
      simp only at h2 h3 h4
      exact ⟨hbelow p h2, ((hmem c).1 (hpl p c h2 h3 h4)).2, h4⟩
    · rintro ⟨h1, h2, h3⟩
      refine ⟨true, rfl, ?_, ?_, h3⟩
      · exact (hmem p).2 ⟨h1, below_head h3 h2⟩
      · rintro rfl
        exact not_below_parent ht h3 h2
  · intro m q base base' g g' hg hg'
    have hat : ∀ p c, A (p, c, true) → m.at ⟨(stop :: (chainDefs l).flatMap fun d => d.name :: d.children.map Prod.fst).dedup, stop, s.parent, s.children, fun n => s.finish n (node n)⟩ q c = (m.at r q c)⁻¹ := by
      intro p c h
      have hc : c ∈ r.ids := hmem_ids c (hbelow c (hpl p c h.2.1 h.2.2.1 h.2.2.2))
      obtain ⟨_, h5⟩ := hbu.locE _ _ _ h
      simp only [Motion.at, Build.finish, h5, hnod c hc, if_true, m.neg]
    obtain ⟨X, hX⟩ : ∃ X : G, X = g' stop * m.at r q stop * (g stop)⁻¹ := ⟨_, rfl⟩
    have hup : ∀ n, Below r stop n → n ∈ l → g' n * m.at r q n = X * g n := by
      intro n hbn
      induction hbn with
      | refl =>
        intro _
        rw [hX]
        group
      | @tail n p hbn hp ih =>
        intro hpl'
        have hns : n ≠ start := by
          rintro rfl
          exact not_below_parent ht hp ((hmem p).1 hpl').2
        have hn : n ∈ l := (hmem n).2 ⟨hbn, below_head hp ((hmem p).1 hpl').2⟩
        have hAe : A (n, p, true) := ⟨rfl, hn, hns, hp⟩
        have h1 := hg'.2 p n ((hbu.par _ _).2 ⟨true, hAe⟩)
        obtain ⟨h4, _⟩ := hbu.locE _ _ _ hAe
        rw [hat n p hAe] at h1
        simp only [Build.finish, h4, if_true, Option.getD_some, hnod n (hmem_ids n hbn)] at h1
        have h5 := hg.2 n p hp
        have ih := ih hn
        rw [h5, ← mul_assoc, mul_left_inj, ← mul_assoc] at ih
        rw [h1, inv_mul_cancel_right, mul_inv_eq_iff_eq_mul]
        exact ih
    refine ⟨X, ?_, ?_⟩
    · intro n hn
      rw [hids] at hn
      exact hup n (hbelow n hn) hn
    · intro n hn hns
      rw [hids] at hn
      obtain ⟨h1, h2⟩ := (hmem n).1 hn
      rcases below_cases h2 with h | ⟨p, hp, _⟩
      · exact absurd h hns
      · refine ⟨p, hp, ?_⟩
        intro b d hbd
        have hAe : A (n, p, true) := ⟨rfl, hn, hns, hp⟩
        have hpi := (ht.parent_mem _ _ hp).2
        refine ⟨n, (hids n).2 hn, (r.node n).loc⁻¹ * d, ?_, ?_⟩
        · have := hbu.mod1 _ _ hAe
          simp only [Build.finish]
          rw [this, hnod p hpi, hnod n (hmem_ids n h1), hbd]
          rfl
        · have h3 := hup n h1 hn
          rw [hg.2 n p hp, ← mul_assoc, mul_left_inj, ← mul_assoc] at h3
          rw [h3]
          group

/-- The hypotheses of `C139_chain` hold for the tool and the base. -/
example : (2 : ℕ) ∈ slideRobot.ids ∧ (0 : ℕ) ≠ 2 ∧ Below slideRobot 2 0 := ⟨by decide, by decide, (slide_below 0).2 (by simp)⟩

end Simox.Rfc
