import Verif.Sph.SphProps
import Verif.Sph.Approach

/-!
# C162: discretization of approach directions
-/

namespace Simox.Sph

section
variable {ν : Type}

/-! ### Specification -/

/-- The nodes of a face. -/
def Approach.nodes (s : Approach ν) (f : ℕ) : List ν := (s.get f).nodes

/-- How often a face has been chosen. -/
def Approach.count (s : Approach ν) (f : ℕ) : ℕ := (s.get f).count

/-- The states that can be reached. -/
inductive Reachable : Approach ν → Prop
  | new (faces : ℕ) : Reachable (.new faces)
  | step {s : Approach ν} (op : Op ν) : Reachable s → Reachable (s.step op)

/-- The face that is drawn with the number `r`. -/
def Approach.drawn (s : Approach ν) (r : ℕ) : ℕ := s.active.getD (r % s.active.length) 0

/-! ### Lemmas -/

/-- What is known of states. -/
structure Inv (s : Approach ν) : Prop where
  nodup : s.active.Nodup
  mem : ∀ f, f ∈ s.active ↔ (s.map f).isSome = true
  nodes : ∀ f, (s.nodes f).Nodup
  range : ∀ f ∈ s.active, f ≤ s.faces

theorem get_put (s : Approach ν) (f g : ℕ) (m : Mapping ν) : (s.put f m).get g = if g = f then m else s.get g := by
  unfold Approach.put Approach.get
  simp only
  split <;> rfl

theorem Inv.put {s : Approach ν} (h : Inv s) {f : ℕ} (hf : f ∈ s.active) {m : Mapping ν} (hm : m.nodes.Nodup) : Inv (s.put f m) := by
  refine ⟨h.nodup, fun g => ?_, fun g => ?_, h.range⟩
  · change g ∈ s.active ↔ (if g = f then some m else s.map g).isSome = true
    split
    · rename_i e
      subst e
      exact ⟨fun _ => rfl, fun _ => hf⟩
    · exact h.mem g
  · unfold Approach.nodes
    rw [get_put]
    split
    · exact hm
    · exact h.nodes g

theorem get_of_map {s : Approach ν} {f : ℕ} {m : Mapping ν} (h : s.map f = some m) : s.get f = m := by
  unfold Approach.get
  rw [h]
  rfl

open Classical in
theorem Inv.remove {s : Approach ν} (h : Inv s) (f : ℤ) (n : ν) : Inv (s.remove f n) := by
  unfold Approach.remove
  split
  · exact h
  · split
    · exact h
    · rename_i m hm
      split
      · refine h.put ((h.mem _).2 (by rw [hm]; rfl)) ?_
        have := h.nodes f.toNat
        unfold Approach.nodes at this
        rw [get_of_map hm] at this
        exact this.erase n
      · exact h

open Classical in
theorem Inv.add {s : Approach ν} (h : Inv s) (f : ℤ) (n : ν) : Inv (s.add f n) := by
  unfold Approach.add
  split
  · exact h
  · rename_i hf
    split
    · rename_i m hm
      split
      · exact h
      · rename_i hn
        refine h.put ((h.mem _).2 (by rw [hm]; rfl)) ?_
        have := h.nodes f.toNat
        unfold Approach.nodes at this
        rw [get_of_map hm] at this
        simp only [List.nodup_append, this, true_and]
        exact ⟨by simp, fun a ha b hb => by rw [List.mem_singleton] at hb; rw [hb]; exact fun e => hn (e ▸ ha)⟩
    · rename_i hm
      have hna : f.toNat ∉ s.active := fun hc => by
        have := (h.mem _).1 hc
        rw [hm] at this
        cases this
      refine ⟨?_, fun g => ?_, fun g => ?_, ?_⟩
      · change (s.active ++ [f.toNat]).Nodup
        simp only [List.nodup_append, h.nodup, true_and]
        exact ⟨by simp, fun a ha b hb => by rw [List.mem_singleton] at hb; rw [hb]; exact fun e => hna (e ▸ ha)⟩
      · change g ∈ s.active ++ [f.toNat] ↔ (if g = f.toNat then some ⟨0, [n]⟩ else s.map g).isSome = true
        rw [List.mem_append, List.mem_singleton]
        by_cases e : g = f.toNat
        · rw [if_pos e]
          exact ⟨fun _ => rfl, fun _ => Or.inr e⟩
        · rw [if_neg e, ← h.mem g]
          exact ⟨fun h => h.elim id fun h => absurd h e, Or.inl⟩
      · have := get_put s f.toNat g ⟨0, [n]⟩
        change ((s.put f.toNat ⟨0, [n]⟩).get g).nodes.Nodup
        rw [this]
        split
        · simp
        · exact h.nodes g
      · intro g hg
        change g ∈ s.active ++ [f.toNat] at hg
        change g ≤ s.faces
        rcases List.mem_append.1 hg with hg | hg
        · exact h.range g hg
        · rw [List.mem_singleton] at hg
          push Not at hf
          omega

theorem drawn_mem {s : Approach ν} (h : s.active.length ≠ 0) (r : ℕ) : s.drawn r ∈ s.active := by
  unfold Approach.drawn
  have hlt : r % s.active.length < s.active.length := Nat.mod_lt _ (Nat.pos_of_ne_zero h)
  rw [List.getD_eq_getElem?_getD, List.getElem?_eq_getElem hlt]
  exact List.getElem_mem hlt

/-- The loop keeps the face with the least count. -/
theorem search_spec (s : Approach ν) (rand : ℕ → ℕ) : ∀ (loops k : ℕ) (best : Option (ℕ × ℕ)),
    (match best with
      | none => ∀ j < k, s.nodes (s.drawn (rand j)) = []
      | some (r, f) => (∃ j < k, s.drawn (rand j) = f) ∧ r = s.count f ∧ s.nodes f ≠ [] ∧ ∀ j < k, s.nodes (s.drawn (rand j)) ≠ [] → r ≤ s.count (s.drawn (rand j))) →
    match (s.search rand loops k best).1 with
      | none => ∀ j < k + loops, s.nodes (s.drawn (rand j)) = []
      | some (r, f) => (∃ j < k + loops, s.drawn (rand j) = f) ∧ r = s.count f ∧ s.nodes f ≠ [] ∧ ∀ j < k + loops, s.nodes (s.drawn (rand j)) ≠ [] → r ≤ s.count (s.drawn (rand j)) := by
  intro loops
  induction loops with
  | zero => exact fun k best h => h
  | succ loops ih =>
    intro k best h
    rw [Approach.search]
    have e : k + (loops + 1) = k + 1 + loops := by omega
    have ef : s.active.getD (rand k % s.active.length) 0 = s.drawn (rand k) := rfl
    rw [ef, e]
    have en : (s.get (s.drawn (rand k))).nodes = s.nodes (s.drawn (rand k)) := rfl
    have ec : (s.get (s.drawn (rand k))).count = s.count (s.drawn (rand k)) := rfl
    rw [en, ec]
    by_cases hc : better best (s.count (s.drawn (rand k))) ∧ (s.nodes (s.drawn (rand k))).length > 0
    · rw [if_pos hc]
      have hne : s.nodes (s.drawn (rand k)) ≠ [] := List.length_pos_iff.1 hc.2
      have hbest : ∀ j < k, s.nodes (s.drawn (rand j)) ≠ [] → s.count (s.drawn (rand k)) ≤ s.count (s.drawn (rand j)) := by
        intro j hj hj'
        match best, h, hc with
        | none, h, _ => exact absurd (h j hj) hj'
        | some (r, f), h, hc => exact (le_of_lt (show s.count (s.drawn (rand k)) < r from hc.1)).trans (h.2.2.2 j hj hj')
      by_cases h0 : s.count (s.drawn (rand k)) = 0
      · rw [if_pos h0]
        exact ⟨⟨k, by omega, rfl⟩, h0.symm, hne, fun j _ _ => Nat.zero_le _⟩
      · rw [if_neg h0]
        refine ih (k + 1) (some (s.count (s.drawn (rand k)), s.drawn (rand k))) ⟨⟨k, Nat.lt_succ_self k, rfl⟩, rfl, hne, fun j hj hj' => ?_⟩
        rcases Nat.lt_succ_iff_lt_or_eq.1 hj with hj | rfl
        · exact hbest j hj hj'
        · exact le_rfl
    · rw [if_neg hc]
      apply ih (k + 1) best
      match best, h, hc with
      | none, h, hc =>
        intro j hj
        rcases Nat.lt_succ_iff_lt_or_eq.1 hj with hj | rfl
        · exact h j hj
        · by_contra hne
          exact hc ⟨trivial, List.length_pos_iff.2 hne⟩
      | some (r, f), h, hc =>
        refine ⟨?_, h.2.1, h.2.2.1, fun j hj hj' => ?_⟩
        · obtain ⟨j, hj, e⟩ := h.1
          exact ⟨j, hj.trans (Nat.lt_succ_self k), e⟩
        · rcases Nat.lt_succ_iff_lt_or_eq.1 hj with hj | rfl
          · exact h.2.2.2 j hj hj'
          · by_contra hlt
            exact hc ⟨not_le.1 hlt, List.length_pos_iff.2 hj'⟩

theorem map_of_active {s : Approach ν} (h : Inv s) {f : ℕ} (hf : f ∈ s.active) : s.map f = some (s.get f) := by
  obtain ⟨m, hm⟩ := Option.isSome_iff_exists.1 ((h.mem f).1 hf)
  rw [hm, get_of_map hm]

open Classical in
/-- What choosing a node does. -/
theorem pick_spec {s : Approach ν} (h : Inv s) (rand : ℕ → ℕ) (loops : ℤ) :
    (s.pick rand loops = (none, s) ∧ (s.active = [] ∨ ∀ j < loops.toNat, s.nodes (s.drawn (rand j)) = [])) ∨
    ∃ n f, n ∈ s.nodes f ∧ f ∈ s.active ∧ (∃ j < loops.toNat, s.drawn (rand j) = f) ∧ (∀ j < loops.toNat, s.nodes (s.drawn (rand j)) ≠ [] → s.count f ≤ s.count (s.drawn (rand j))) ∧
      s.pick rand loops = (some n, (s.put f ⟨s.count f + 1, s.nodes f⟩).put f ⟨s.count f + 1, (s.nodes f).erase n⟩) := by
  unfold Approach.pick
  by_cases h0 : s.active.length = 0
  · rw [if_pos h0]
    exact Or.inl ⟨rfl, Or.inl (List.length_eq_zero_iff.1 h0)⟩
  · rw [if_neg h0]
    have hs := search_spec s rand loops.toNat 0 none (fun j hj => absurd hj (Nat.not_lt_zero j))
    rw [Nat.zero_add] at hs
    match hm : s.search rand loops.toNat 0 none with
    | (none, k) =>
      rw [hm] at hs
      exact Or.inl ⟨rfl, Or.inr hs⟩
    | (some (r, f), k) =>
      rw [hm] at hs
      obtain ⟨⟨j, hj, ej⟩, hr, hne, hall⟩ := hs
      have hf : f ∈ s.active := ej ▸ drawn_mem h0 _
      have hlt : rand k % (s.nodes f).length < (s.nodes f).length := Nat.mod_lt _ (List.length_pos_iff.2 hne)
      have hg : (s.get f).nodes[rand k % (s.get f).nodes.length]? = some (s.nodes f)[rand k % (s.nodes f).length] := List.getElem?_eq_getElem hlt
      right
      refine ⟨(s.nodes f)[rand k % (s.nodes f).length], f, List.getElem_mem hlt, hf, ⟨j, hj, ej⟩, fun i hi hi' => hr ▸ hall i hi hi', ?_⟩
      simp only
      rw [hg]
      simp only
      congr 1
      unfold Approach.remove
      have hle := h.range f hf
      have hfaces : (s.put f ⟨(s.get f).count + 1, (s.get f).nodes⟩).faces = s.faces := rfl
      rw [if_neg (by rw [hfaces]; push Not; constructor <;> omega)]
      have e1 : (s.put f ⟨(s.get f).count + 1, (s.get f).nodes⟩).map ((f : ℤ).toNat) = some ⟨(s.get f).count + 1, (s.get f).nodes⟩ := by
        rw [Int.toNat_natCast]
        exact if_pos rfl
      rw [e1]
      simp only
      have hmem : (s.nodes f)[rand k % (s.nodes f).length] ∈ (s.get f).nodes := List.getElem_mem hlt
      rw [if_pos hmem, Int.toNat_natCast]
      rfl

theorem Reachable.inv {s : Approach ν} (h : Reachable s) : Inv s := by
  induction h with
  | new faces => exact ⟨List.nodup_nil, fun f => by simp [Approach.new], fun f => List.nodup_nil, fun f hf => by cases hf⟩
  | @step s op _ ih =>
    cases op with
    | add f n => exact ih.add f n
    | remove f n => exact ih.remove f n
    | clear => exact ⟨List.nodup_nil, fun f => by simp [Approach.clear, Approach.step], fun f => List.nodup_nil, fun f hf => by cases hf⟩
    | pick rand loops =>
      change Inv (s.pick rand loops).2
      rcases pick_spec ih rand loops with ⟨e, -⟩ | ⟨n, f, hn, hf, -, -, e⟩
      · rw [e]
        exact ih
      · rw [e]
        classical exact (ih.put (m := ⟨s.count f + 1, s.nodes f⟩) hf (ih.nodes f)).put (m := ⟨s.count f + 1, (s.nodes f).erase n⟩) hf ((ih.nodes f).erase n)

/-! ### Properties -/

/-- **C162** (adding nodes).  A node that is added to a face of the sphere is in the list of this face afterwards, once; the other faces keep theirs. -/
theorem C162_add {s : Approach ν} {f : ℕ} (hf : f < s.faces) (n : ν) : (n ∈ s.nodes f → (s.add f n).nodes f = s.nodes f) ∧ (n ∉ s.nodes f → (s.add f n).nodes f = s.nodes f ++ [n]) ∧
    ∀ g, g ≠ f → (s.add f n).nodes g = s.nodes g := by
  classical
  have hb : ¬((f : ℤ) < 0 ∨ (f : ℤ) > s.faces) := by push Not; constructor <;> omega
  unfold Approach.add
  rw [if_neg hb, Int.toNat_natCast]
  unfold Approach.nodes
  cases hm : s.map f with
  | none =>
    have hg : s.get f = ⟨0, []⟩ := by unfold Approach.get; rw [hm]; rfl
    rw [hg]
    refine ⟨fun h => (by cases h), fun _ => ?_, fun g hg' => ?_⟩
    · change ((s.put f ⟨0, [n]⟩).get f).nodes = _
      rw [get_put, if_pos rfl]
      rfl
    · change ((s.put f ⟨0, [n]⟩).get g).nodes = _
      rw [get_put, if_neg hg']
  | some m =>
    rw [get_of_map hm]
    simp only
    refine ⟨fun h => ?_, fun h => ?_, fun g hg' => ?_⟩
    · rw [if_pos h, get_of_map hm]
    · rw [if_neg h, get_put, if_pos rfl]
    · split
      · rfl
      · rw [get_put, if_neg hg']

open Classical in
/-- **C162** (removing nodes).  A node that is removed from a face is not in its list afterwards; all else stays. -/
theorem C162_remove {s : Approach ν} (h : Reachable s) {f : ℕ} (hf : f < s.faces) (n : ν) : (s.remove f n).nodes f = (s.nodes f).erase n ∧ n ∉ (s.remove f n).nodes f ∧
    ∀ g, g ≠ f → (s.remove f n).nodes g = s.nodes g := by
  have hb : ¬((f : ℤ) < 0 ∨ (f : ℤ) > s.faces) := by push Not; constructor <;> omega
  have key : (s.remove f n).nodes f = (s.nodes f).erase n ∧ ∀ g, g ≠ f → (s.remove f n).nodes g = s.nodes g := by
    unfold Approach.remove
    rw [if_neg hb, Int.toNat_natCast]
    unfold Approach.nodes
    cases hm : s.map f with
    | none =>
      have hg : s.get f = ⟨0, []⟩ := by unfold Approach.get; rw [hm]; rfl
      rw [hg]
      exact ⟨rfl, fun g _ => rfl⟩
    | some m =>
      rw [get_of_map hm]
      simp only
      by_cases hn : n ∈ m.nodes
      · rw [if_pos hn]
        exact ⟨by rw [get_put, if_pos rfl], fun g hg => by rw [get_put, if_neg hg]⟩
      · rw [if_neg hn, get_of_map hm, List.erase_of_not_mem hn]
        exact ⟨rfl, fun g _ => rfl⟩
  refine ⟨key.1, ?_, key.2⟩
  rw [key.1]
  exact (h.inv.nodes f).not_mem_erase

/-- **C162** (ids).  Ids below zero or above the number of faces change nothing. -/
theorem C162_ids (s : Approach ν) {f : ℤ} (hf : f < 0 ∨ (s.faces : ℤ) < f) (n : ν) : s.add f n = s ∧ s.remove f n = s := ⟨if_pos hf, if_pos hf⟩

/-- **C162** (ids, one too large).  The number of faces, which is no id of a face, is accepted as one. -/
theorem C162_ids_false (faces : ℕ) (n : ν) : ((Approach.new faces : Approach ν).add faces n).nodes faces = [n] := by
  classical
  have hb : ¬((faces : ℤ) < 0 ∨ (faces : ℤ) > ((Approach.new faces : Approach ν).faces : ℤ)) := by
    change ¬((faces : ℤ) < 0 ∨ (faces : ℤ) > (faces : ℤ))
    push Not
    constructor <;> omega
  unfold Approach.add
  rw [if_neg hb, Int.toNat_natCast]
  change ((Approach.put _ _ _).get _).nodes = _
  rw [get_put, if_pos rfl]

/-- **C162** (no node twice).  In all states that can be reached, no face has a node twice. -/
theorem C162_once {s : Approach ν} (h : Reachable s) (f : ℕ) : (s.nodes f).Nodup := h.inv.nodes f

open Classical in
/-- **C162** (choosing a node).  A node that is chosen was in the list of a face that was drawn; of the faces that were drawn and have nodes, this one had been chosen the fewest times.  The node is
taken out of the list, the face counts as chosen once more, and all other faces stay as they are. -/
theorem C162_pick {s s' : Approach ν} (h : Reachable s) {rand : ℕ → ℕ} {loops : ℤ} {n : ν} (e : s.pick rand loops = (some n, s')) :
    ∃ f, n ∈ s.nodes f ∧ (∃ j < loops.toNat, s.drawn (rand j) = f) ∧ (∀ j < loops.toNat, s.nodes (s.drawn (rand j)) ≠ [] → s.count f ≤ s.count (s.drawn (rand j))) ∧
      s'.nodes f = (s.nodes f).erase n ∧ n ∉ s'.nodes f ∧ s'.count f = s.count f + 1 ∧ ∀ g, g ≠ f → s'.nodes g = s.nodes g ∧ s'.count g = s.count g := by
  rcases pick_spec h.inv rand loops with ⟨e', -⟩ | ⟨n', f, hn, hf, hd, hl, e'⟩
  · rw [e'] at e
    cases e
  · rw [e'] at e
    cases e
    have h1 : ((s.put f ⟨s.count f + 1, s.nodes f⟩).put f ⟨s.count f + 1, (s.nodes f).erase n⟩).nodes f = (s.nodes f).erase n := by
      unfold Approach.nodes
      rw [get_put, if_pos rfl]
    refine ⟨f, hn, hd, hl, h1, ?_, ?_, fun g hg => ⟨?_, ?_⟩⟩
    · rw [h1]
      exact (h.inv.nodes f).not_mem_erase
    · unfold Approach.count
      rw [get_put, if_pos rfl]
    · unfold Approach.nodes
      rw [get_put, if_neg hg, get_put, if_neg hg]
    · unfold Approach.count
      rw [get_put, if_neg hg, get_put, if_neg hg]

/-- **C162** (no node).  If no node is chosen, nothing is changed, and there is no face with nodes among those that were drawn. -/
theorem C162_none {s s' : Approach ν} (h : Reachable s) {rand : ℕ → ℕ} {loops : ℤ} (e : s.pick rand loops = (none, s')) : s' = s ∧ (s.active = [] ∨ ∀ j < loops.toNat, s.nodes (s.drawn (rand j)) = []) := by
  rcases pick_spec h.inv rand loops with ⟨e', h'⟩ | ⟨n', f, hn, hf, hd, hl, e'⟩
  · rw [e'] at e
    cases e
    exact ⟨rfl, h'⟩
  · rw [e'] at e
    cases e

/-- **C162** (nodes that are missed).  Faces without nodes go on being drawn: there are states with a node for which, with some numbers from `rand`, none is chosen. -/
theorem C162_missed_false (a b : ν) : ∃ s : Approach ν, Reachable s ∧ b ∈ s.nodes 1 ∧ ∃ rand, ∀ loops, (s.pick rand loops).1 = none := by
  have r1 : Reachable ((((Approach.new 8 : Approach ν).step (.add 0 a)).step (.add 1 b)).step (.remove 0 a)) := .step _ (.step _ (.step _ (.new 8)))
  have r2 : Reachable (((Approach.new 8 : Approach ν).step (.add 0 a)).step (.add 1 b)) := .step _ (.step _ (.new 8))
  have n0 : (Approach.new 8 : Approach ν).nodes 0 = [] := rfl
  have n1 : (Approach.new 8 : Approach ν).nodes 1 = [] := rfl
  have h1 := C162_add (s := (Approach.new 8 : Approach ν)) (f := 0) (show 0 < 8 by decide) a
  have e0 : (((Approach.new 8 : Approach ν).step (.add 0 a))).nodes 0 = [a] := (h1.2.1 (by rw [n0]; simp)).trans (by rw [n0]; rfl)
  have e1 : (((Approach.new 8 : Approach ν).step (.add 0 a))).nodes 1 = [] := (h1.2.2 1 (by decide)).trans n1
  have hf : (((Approach.new 8 : Approach ν).step (.add 0 a))).faces = 8 := rfl
  have h2 := C162_add (s := ((Approach.new 8 : Approach ν).step (.add 0 a))) (f := 1) (by rw [hf]; decide) b
  have e2 : ((((Approach.new 8 : Approach ν).step (.add 0 a)).step (.add 1 b))).nodes 1 = [b] := (h2.2.1 (by rw [e1]; simp)).trans (by rw [e1]; rfl)
  have e3 : ((((Approach.new 8 : Approach ν).step (.add 0 a)).step (.add 1 b))).nodes 0 = [a] := (h2.2.2 0 (by decide)).trans e0
  have hf2 : ((((Approach.new 8 : Approach ν).step (.add 0 a)).step (.add 1 b))).faces = 8 := rfl
  have h3 := C162_remove r2 (f := 0) (by rw [hf2]; decide) a
  have e4 : ((((Approach.new 8 : Approach ν).step (.add 0 a)).step (.add 1 b)).step (.remove 0 a)).nodes 0 = [] := h3.1.trans (by rw [e3]; simp)
  have e5 : ((((Approach.new 8 : Approach ν).step (.add 0 a)).step (.add 1 b)).step (.remove 0 a)).nodes 1 = [b] := (h3.2.2 1 (by decide)).trans e2
  have act : ((((Approach.new 8 : Approach ν).step (.add 0 a)).step (.add 1 b)).step (.remove 0 a)).active = [0, 1] := by
    simp [Approach.step, Approach.add, Approach.remove, Approach.new, Approach.put]
  obtain ⟨s, es⟩ : ∃ s, s = ((((Approach.new 8 : Approach ν).step (.add 0 a)).step (.add 1 b)).step (.remove 0 a)) := ⟨_, rfl⟩
  rw [← es] at r1 e4 e5 act
  refine ⟨s, r1, by rw [e5]; simp, fun _ => 0, fun loops => ?_⟩
  rcases hp : s.pick (fun _ => 0) loops with ⟨x, s'⟩
  cases x with
  | none => rfl
  | some n =>
    obtain ⟨f, hn, ⟨j, -, hd⟩, -⟩ := C162_pick r1 hp
    have : s.drawn 0 = 0 := by unfold Approach.drawn; rw [act]; rfl
    rw [this] at hd
    rw [← hd, e4] at hn
    cases hn

end

/-- The face that is found is one of those tested, and the ray meets it. -/
theorem firstFace_some {s : Sphere} {dir : Vec} {j : ℕ} : ∀ js, firstFace s dir js = some j → j ∈ js ∧ ∃ f a b c, s.faces[j]? = some f ∧ s.vertices[f.a]? = some a ∧ s.vertices[f.b]? = some b ∧
    s.vertices[f.c]? = some c ∧ (intersect a b c ⟨0, 0, 0⟩ dir).isSome = true := by
  intro js
  induction js with
  | nil => intro h; cases h
  | cons k js ih =>
    intro h
    rw [firstFace] at h
    have up : firstFace s dir js = some j → j ∈ k :: js ∧ ∃ f a b c, s.faces[j]? = some f ∧ s.vertices[f.a]? = some a ∧ s.vertices[f.b]? = some b ∧
        s.vertices[f.c]? = some c ∧ (intersect a b c ⟨0, 0, 0⟩ dir).isSome = true := fun h => ⟨List.mem_cons_of_mem _ (ih h).1, (ih h).2⟩
    split at h
    · exact up h
    · rename_i f hf
      split at h
      · rename_i a b c ha hb hc
        split at h
        · rename_i hi
          cases h
          exact ⟨List.mem_cons_self, f, a, b, c, hf, ha, hb, hc, hi⟩
        · exact up h
      · exact up h

theorem firstFace_none {s : Sphere} {dir : Vec} : ∀ js, firstFace s dir js = none → ∀ j ∈ js, ∀ f a b c, s.faces[j]? = some f → s.vertices[f.a]? = some a → s.vertices[f.b]? = some b →
    s.vertices[f.c]? = some c → (intersect a b c ⟨0, 0, 0⟩ dir).isSome = false := by
  intro js
  induction js with
  | nil => intro _ j hj; cases hj
  | cons k js ih =>
    intro h j hj f a b c hf ha hb hc
    rw [firstFace] at h
    rcases List.mem_cons.1 hj with rfl | hj
    · rw [hf] at h
      simp only [ha, hb, hc] at h
      split at h
      · cases h
      · rename_i hi
        exact Bool.eq_false_iff.2 hi
    · refine ih ?_ j hj f a b c hf ha hb hc
      split at h
      · exact h
      · split at h
        · split at h
          · cases h
          · exact h
        · exact h

/-- **C162** (the face of a direction).  If a face is found for a position that is not at the centre, then the ray from the centre through the position goes through this face. -/
theorem C162_face {s : Sphere} {centre pos : Vec} {j : ℕ} (h : nearestFace s centre pos = some j) (hd : 1 / 10 ^ 8 ≤ (pos - centre).norm) :
    ∃ f a b c, s.faces[j]? = some f ∧ s.vertices[f.a]? = some a ∧ s.vertices[f.b]? = some b ∧ s.vertices[f.c]? = some c ∧ ∃ t : ℝ, 0 ≤ t ∧ InTriangle (t • (pos - centre)) a b c := by
  unfold nearestFace at h
  simp only at h
  rw [if_neg (not_lt.2 hd)] at h
  split at h
  · cases h
  · obtain ⟨-, f, a, b, c, hf, ha, hb, hc, hi⟩ := firstFace_some _ h
    obtain ⟨q, hq⟩ := Option.isSome_iff_exists.1 hi
    obtain ⟨-, h1, t, ht, e⟩ := (C161_ray _ _ _ _ _ _).1 hq
    refine ⟨f, a, b, c, hf, ha, hb, hc, t, ht, ?_⟩
    have : q = t • (pos - centre) := by rw [e]; ext <;> simp
    rwa [← this]

/-- **C162** (when there is none).  If no face is found for a position, then the ray goes through no face with the nearest vertex as a corner, from the inside. -/
theorem C162_face_none {base : Base} {n : ℕ} {radius : ℝ} {s : Sphere} (hs : generate Sphere.empty base n radius = some s) {centre pos : Vec} (h : nearestFace s centre pos = none) {v : ℕ}
    (hv : findVertex (pos - centre) 10000 s.vertices = some v) {j : ℕ} {f : Face} (hf : s.faces[j]? = some f) (hc : f.a = v ∨ f.b = v ∨ f.c = v) {a b c : Vec} (ha : s.vertices[f.a]? = some a)
    (hb : s.vertices[f.b]? = some b) (hc' : s.vertices[f.c]? = some c) (hi : ((b - a).cross (c - a)).dot (pos - centre) < 0) (t : ℝ) (ht : 0 ≤ t) : ¬ InTriangle (t • (pos - centre)) a b c := by
  intro hq
  unfold nearestFace at h
  simp only at h
  split at h
  · cases h
  · rw [hv] at h
    simp only at h
    have h1 := firstFace_none _ h j ((C159_index hs v j).2 ⟨f, hf, hc⟩) f a b c hf ha hb hc'
    have h2 : intersect a b c ⟨0, 0, 0⟩ (pos - centre) = some (t • (pos - centre)) := (C161_ray _ _ _ _ _ _).2 ⟨hi, hq, t, ht, by ext <;> simp⟩
    rw [h2] at h1
    cases h1

/-! Concrete cases. -/

example : Reachable ((Approach.new 8 : Approach ℕ).step (.add 3 5)) := .step _ (.new 8)

end Simox.Sph
