import Verif.Rfc.BuildLemmas
import Mathlib.Algebra.BigOperators.Group.Finset.Basic

/-!
# Lemmas: the robot with another root
-/

namespace Simox.Rfc

variable {G V P B : Type} [Group G] [MulAction G P] [Zero P] [Neg V]

omit [MulAction G P] [Zero P] [Neg V] in
theorem cloneNode_one {z : V} {n : Node G V P B} (h : DhOk z n) : cloneNode (Scale.one G P B) z n = n := by
  have hm : (n.model.map fun m => ((Scale.one G P B).shape m.1, (Scale.one G P B).pose m.2)) = n.model := by
    rw [show (fun m : B × G => ((Scale.one G P B).shape m.1, (Scale.one G P B).pose m.2)) = id from rfl, Option.map_id]
    rfl
  rcases hn : n.dh with _ | a
  · rw [Node.ext_iff]
    simp only [cloneNode, hm, hn]
    exact ⟨trivial, rfl, rfl, rfl, trivial, trivial, rfl⟩
  · obtain ⟨h1, h2⟩ := h a hn
    rw [Node.ext_iff]
    simp only [cloneNode, hm, hn]
    exact ⟨trivial, h1.symm, rfl, h2.symm, trivial, trivial, rfl⟩

/-- The edges of the new structure. -/
def NewEdge (r : Robot G V P B) (x : ℕ) (e : Edge) : Prop := Tow r x e.2.1 e.1 ∧ (e.2.2 = true ↔ r.parent e.1 = some e.2.1)

omit [Group G] [MulAction G P] [Zero P] [Neg V] in
theorem no_two_cycle {r : Robot G V P B} (ht : IsTree r) {a b : ℕ} (h : r.parent a = some b) : r.parent b ≠ some a :=
  fun h' => not_below_parent ht h (Relation.ReflTransGen.single h')

omit [Group G] [MulAction G P] [Zero P] [Neg V] in
theorem newEdge_fits {r : Robot G V P B} (ht : IsTree r) (x : ℕ) : Fits (NewEdge r x) where
  func := by
    intro p c b p' b' h h'
    have hp := tow_unique ht h.1 h'.1
    simp only at hp
    subst hp
    refine ⟨rfl, ?_⟩
    have h1 := h.2
    have h2 := h'.2
    simp only at h1 h2
    rw [Bool.eq_iff_iff, h1, h2]
  invf := by
    intro p c c' h h'
    have h1 := h.2.1 rfl
    have h2 := h'.2.1 rfl
    simp only at h1 h2
    rw [h1] at h2
    exact Option.some.inj h2
  excl := by
    intro p n c h h'
    have h2 := h'.2.1 rfl
    simp only at h2
    have hb : Below r x n := by
      rcases h'.1 with h3 | h3
      · exact h3.2
      · exact absurd h3.1 (no_two_cycle ht h2)
    rcases h.1 with h3 | h3
    · exact absurd (h.2.2 h3.1) (by simp)
    · exact h3.2 hb
  irr := by
    rintro p c b h rfl
    rcases h.1 with h3 | h3
    · exact no_two_cycle ht h3.1 h3.1
    · exact no_two_cycle ht h3.1 h3.1

/-- All that is used about the new robot. -/
structure Rerooted (r : Robot G V P B) (x : ℕ) (r' : Robot G V P B) : Prop where
  root : r'.root = x
  nodup : r'.ids.Nodup
  mem : ∀ n, n ∈ r'.ids ↔ n ∈ r.ids
  par : ∀ p c, r'.parent c = some p ↔ Tow r x c p
  chi : ∀ p c, c ∈ r'.children p ↔ Tow r x c p
  chn : ∀ p, (r'.children p).Nodup
  same : ∀ n ∈ r.ids, (r'.node n).kind = (r.node n).kind ∧ (r'.node n).offset = (r.node n).offset ∧ (r'.node n).dh = (r.node n).dh
  start : (r'.node x).loc = 1 ∧ (r'.node x).axis = (r.node x).axis
  up : ∀ n p, r.parent n = some p → Below r x n → (r'.node p).loc = (r.node n).loc⁻¹ ∧ (r'.node p).axis = -(r.node p).axis
  off : ∀ n ∈ r.ids, ¬ Below r x n → r'.node n = r.node n
  body : ∀ n p, r.parent n = some p → Below r x n →
    (r'.node n).model = ((r.node p).model.map fun m => (m.1, (r.node n).loc⁻¹ * m.2)) ∧ (r'.node n).phys = (r.node p).phys.move (r.node n).loc⁻¹
  last : (r'.node r.root).model = none ∧ (r'.node r.root).phys = if r.root = x then (r.node x).phys else Phys.empty

theorem rerooted {r : Robot G V P B} (ht : IsTree r) {z : V} (hdh : ∀ n ∈ r.ids, DhOk z (r.node n)) {x fuel : ℕ} (hx : x ∈ r.ids) (hf : r.ids.length ≤ fuel) :
    ∃ r', cloneInversed z r fuel x = some r' ∧ Rerooted r x r' := by
  obtain ⟨l, h1, h2, h3⟩ := search_found ht (x := x) fuel [] [(none, x)] (found_start ht hx) (by simpa using hf)
  have hA := newEdge_fits ht x
  have hall := found_all ht h2
  simp only [List.nil_append] at hall
  have hnames : ∀ n, n ∈ l.flatMap (fun d => d.name :: d.children.map Prod.fst) ↔ n ∈ r.ids := by
    intro n
    rw [List.mem_flatMap]
    constructor
    · rintro ⟨d, hd, hn⟩
      rcases List.mem_cons.1 hn with rfl | hn
      · exact (hall _).1 (List.mem_map.2 ⟨d, hd, rfl⟩)
      · obtain ⟨⟨m, b⟩, hm, rfl⟩ := List.mem_map.1 hn
        rcases (((h3 d hd).2 m b).1 hm).1 with h' | h'
        · exact (ht.parent_mem _ _ h'.1).2
        · exact (ht.parent_mem _ _ h'.1).1
    · intro hn
      obtain ⟨d, hd, rfl⟩ := List.mem_map.1 ((hall n).2 hn)
      exact ⟨d, hd, by simp⟩
  have hcond : x ∈ r.ids ∧ ∀ n ∈ l.flatMap (fun d => d.name :: d.children.map Prod.fst), n ∈ r.ids := ⟨hx, fun n hn => (hnames n).1 hn⟩
  obtain ⟨hb, hsome⟩ := built_entries (node := fun n => cloneNode (Scale.one G P B) z (r.node n)) hA l (S := fun _ => False) (s := Build.empty) (done := []) (by simp) (built_empty _)
    (by
      intro d hd
      refine ⟨?_, (h3 d hd).1⟩
      rintro ⟨m, b⟩ hc
      exact ((h3 d hd).2 m b).1 hc) (by simpa using h2.nodup) (by simp) (by simp)
  have hb := built_congr hb (T := NewEdge r x) (by
    rintro ⟨p, c, b⟩
    constructor
    · rintro (h | ⟨d, hd, ⟨m, b'⟩, hc, h⟩)
      · exact h.elim
      · cases h
        exact ((h3 d hd).2 _ _).1 hc
    · intro h
      right
      have hp : p ∈ r.ids := by
        rcases h.1 with h' | h'
        · exact (ht.parent_mem _ _ h'.1).1
        · exact (ht.parent_mem _ _ h'.1).2
      obtain ⟨d, hd, hdn⟩ := List.mem_map.1 ((hall p).2 hp)
      subst hdn
      exact ⟨d, hd, (c, b), ((h3 d hd).2 c b).2 h, rfl⟩)
  simp only [List.nil_append] at hsome
  set node : ℕ → Node G V P B := fun n => cloneNode (Scale.one G P B) z (r.node n) with hnode
  set s := l.foldl (Build.entry node) Build.empty with hs
  have hnd : ∀ n ∈ r.ids, node n = r.node n := fun n hn => cloneNode_one (hdh n hn)
  refine ⟨⟨(x :: l.flatMap fun d => d.name :: d.children.map Prod.fst).dedup, x, s.parent, s.children, fun n => s.finish n (node n)⟩, ?_, ?_⟩
  · unfold cloneInversed
    rw [if_pos hx, h1, Option.bind_some, restructure]
    simp only
    rw [if_pos hcond]
  have hedge : ∀ {p c}, Tow r x c p → ∃ b, NewEdge r x (p, c, b) := by
    intro p c h
    by_cases hp : r.parent p = some c
    · exact ⟨true, h, by simp [hp]⟩
    · exact ⟨false, h, by simp [hp]⟩
  have hup : ∀ {n p}, r.parent n = some p → Below r x n → NewEdge r x (n, p, true) := by
    intro n p hp hbl
    exact ⟨.inl ⟨hp, hbl⟩, by simp [hp]⟩
  constructor
  · rfl
  · exact List.nodup_dedup _
  · intro n
    rw [List.mem_dedup, List.mem_cons, hnames]
    constructor
    · rintro (rfl | h)
      · exact hx
      · exact h
    · exact .inr
  · intro p c
    rw [hb.par]
    constructor
    · rintro ⟨b, h⟩
      exact h.1
    · exact hedge
  · intro p c
    rw [hb.chi]
    constructor
    · rintro ⟨b, h⟩
      exact h.1
    · exact hedge
  · exact hb.chn
  · intro n hn
    simp only [Build.finish, hnd n hn]
    exact ⟨trivial, trivial, trivial⟩
  · have hno : ∀ p b, ¬ NewEdge r x (p, x, b) := fun p b h => tow_self ht h.1
    obtain ⟨h4, h5⟩ := hb.locN x hno
    have h6 := hsome x ((hall x).2 hx)
    have h7 : s.loc x = some 1 := by
      rcases h4 with h4 | h4
      · rw [h4] at h6
        exact absurd h6 (by simp)
      · exact h4
    simp only [Build.finish, h7, h5, hnd x hx]
    exact ⟨rfl, rfl⟩
  · intro n p hp hbl
    obtain ⟨h4, h5⟩ := hb.locE _ _ _ (hup hp hbl)
    obtain ⟨hn, hpm⟩ := ht.parent_mem _ _ hp
    simp only [Build.finish, h4, h5, hnd n hn, hnd p hpm]
    exact ⟨rfl, rfl⟩
  · intro n hn hbl
    have hnx : n ≠ x := by
      rintro rfl
      exact hbl (below_refl r n)
    obtain ⟨p, _, htow⟩ := tow_exists ht hn hx hnx
    have hp : r.parent n = some p := by
      rcases htow with h | h
      · exact absurd (below_step h.2 h.1) hbl
      · exact h.1
    have he : NewEdge r x (p, n, false) := by
      refine ⟨htow, ?_⟩
      simp only [Bool.false_eq_true, false_iff]
      exact no_two_cycle ht hp
    obtain ⟨h4, h5⟩ := hb.locE _ _ _ he
    have h6 := hb.mod2 _ _ he
    have h7 := hb.phy3 n (fun c h => hA.excl he h) (fun p' h => by
      have := (hA.func h he).2
      exact absurd this (by simp))
    rw [Node.ext_iff]
    simp only [Build.finish, h4, h5, h6, h7, hnd n hn]
    exact ⟨trivial, rfl, trivial, rfl, trivial, trivial, rfl⟩
  · intro n p hp hbl
    have he := hup hp hbl
    obtain ⟨hn, hpm⟩ := ht.parent_mem _ _ hp
    have h6 := hb.mod1 _ _ he
    have h7 := hb.phy1 _ _ he
    simp only [Build.finish, h6, h7, hnd n hn, hnd p hpm]
    exact ⟨trivial, rfl⟩
  · have hrb := below_root ht hx
    have hno1 : ∀ c, ¬ NewEdge r x (r.root, c, true) := by
      intro c h
      have := h.2.1 rfl
      simp only at this
      rw [ht.root_parent] at this
      exact absurd this (by simp)
    have hno2 : ∀ p, ¬ NewEdge r x (p, r.root, false) := by
      intro p h
      rcases h.1 with h' | h'
      · exact absurd (h.2.2 h'.1) (by simp)
      · exact h'.2 hrb
    refine ⟨hb.mod3 _ hno1 hno2, ?_⟩
    simp only [Build.finish, hnd _ ht.root_mem]
    split
    · rename_i hrx
      rw [hb.phy3 _ hno1 (fun p h => by
        rw [hrx] at h
        exact tow_self ht h.1), hrx]
      rfl
    · rename_i hrx
      obtain ⟨p, _, htow⟩ := tow_exists ht ht.root_mem hx hrx
      rw [hb.phy2 _ hno1 ⟨p, htow, ?_⟩]
      · rfl
      · simp only [true_iff]
        rcases htow with h | h
        · exact h.1
        · exact absurd hrb h.2

omit [Group G] [MulAction G P] [Zero P] [Neg V] in
/-- The new robot is a tree, whose nodes are nearer to the new root than their children. -/
theorem rerooted_rank {r : Robot G V P B} (ht : IsTree r) {x : ℕ} : ∃ rank : ℕ → ℕ, ∀ c p, Tow r x c p → rank p < rank c := by
  classical
  obtain ⟨rank, hr⟩ := ht.acyclic
  refine ⟨fun n => if Below r x n then rank x - rank n else rank x + 1 + rank n, ?_⟩
  rintro c p (⟨h1, h2⟩ | ⟨h1, h2⟩)
  · have h3 := below_step h2 h1
    have h4 := below_rank hr h2
    have h5 := hr _ _ h1
    simp only [if_pos h2, if_pos h3]
    omega
  · have h5 := hr _ _ h1
    simp only [if_neg h2]
    split
    · omega
    · omega

end Simox.Rfc
