import Verif.Mjc.Lemmas

/-!
# Lemmas: the bodies of the nodes
-/

set_option linter.unusedSectionVars false

namespace Simox.Mjc

open Kin

section
variable {R V Q : Type} [Group R] [AddCommGroup V] [DistribMulAction R V]

theorem names_mk (n : String) (p : Pose R V) (i : List (Item R V Q)) (bs : List (Body R V Q)) : (Body.mk n p i bs).names = n :: namesAll bs := rfl

theorem namesAll_cons (b : Body R V Q) (bs : List (Body R V Q)) : namesAll (b :: bs) = b.names ++ namesAll bs := by
  simp [namesAll, Body.names, allAll]

theorem namesAll_append (bs cs : List (Body R V Q)) : namesAll (bs ++ cs) = namesAll bs ++ namesAll cs := by
  induction bs with
  | nil => rfl
  | cons b bs ih => rw [List.cons_append, namesAll_cons, namesAll_cons, ih, List.append_assoc]

mutual
theorem insert_absent (p : String) (c : Body R V Q) : ∀ b : Body R V Q, p ∉ b.names → Body.insert p c b = b
  | ⟨n, q, i, bs⟩, h => by
    rw [names_mk, List.mem_cons, not_or] at h
    rw [Body.insert, if_neg (Ne.symm h.1), insertAll_absent p c bs h.2]
theorem insertAll_absent (p : String) (c : Body R V Q) : ∀ bs : List (Body R V Q), p ∉ namesAll bs → insertAll p c bs = bs
  | [], _ => rfl
  | b :: bs, h => by
    rw [namesAll_cons, List.mem_append, not_or] at h
    rw [insertAll, insert_absent p c b h.1, insertAll_absent p c bs h.2]
end

mutual
theorem insert_names (p : String) (c : Body R V Q) : ∀ b : Body R V Q, p ∈ b.names → b.names.Nodup → (Body.insert p c b).names.Perm (b.names ++ c.names)
  | ⟨n, q, i, bs⟩, h, hn => by
    rw [names_mk] at h hn ⊢
    rw [Body.insert]
    by_cases e : n = p
    · rw [if_pos e, names_mk, namesAll_append, namesAll_cons]
      have : p ∉ namesAll bs := e ▸ (List.nodup_cons.1 hn).1
      rw [insertAll_absent p c bs this]
      simp [namesAll, allAll]
    · rw [if_neg e, names_mk]
      rcases List.mem_cons.1 h with h | h
      · exact absurd h.symm e
      · exact List.Perm.cons _ (insertAll_names p c bs h (List.nodup_cons.1 hn).2)
theorem insertAll_names (p : String) (c : Body R V Q) : ∀ bs : List (Body R V Q), p ∈ namesAll bs → (namesAll bs).Nodup → (namesAll (insertAll p c bs)).Perm (namesAll bs ++ c.names)
  | [], h, _ => by simp [namesAll, allAll] at h
  | b :: bs, h, hn => by
    rw [namesAll_cons] at h hn ⊢
    obtain ⟨h1, h2, h3⟩ := List.nodup_append.1 hn
    rw [insertAll, namesAll_cons]
    by_cases e : p ∈ b.names
    · have : p ∉ namesAll bs := fun h' => h3 p e p h' rfl
      rw [insertAll_absent p c bs this]
      refine List.Perm.trans (List.Perm.append_right _ (insert_names p c b e h1)) ?_
      rw [List.append_assoc, List.append_assoc]
      exact List.Perm.append_left _ List.perm_append_comm
    · rw [insert_absent p c b e]
      rcases List.mem_append.1 h with h | h
      · exact absurd h e
      · rw [List.append_assoc]
        exact List.Perm.append_left _ (insertAll_names p c bs h h2)
end

mutual
theorem placed_names (M : Motion R V Q) (q : String → Q) : ∀ (g : Pose R V) (b : Body R V Q), (b.placed M q g).map Placed.name = b.names
  | g, ⟨n, p, i, bs⟩ => by rw [Body.placed, List.map_cons, placedAll_names M q _ bs, names_mk]
theorem placedAll_names (M : Motion R V Q) (q : String → Q) : ∀ (g : Pose R V) (bs : List (Body R V Q)), (placedAll M q g bs).map Placed.name = namesAll bs
  | g, [] => rfl
  | g, b :: bs => by rw [placedAll, List.map_append, placed_names M q _ b, placedAll_names M q _ bs, namesAll_cons]
end

theorem placedAll_append (M : Motion R V Q) (q : String → Q) (g : Pose R V) (bs cs : List (Body R V Q)) : placedAll M q g (bs ++ cs) = placedAll M q g bs ++ placedAll M q g cs := by
  induction bs with
  | nil => rfl
  | cons b bs ih => rw [List.cons_append, placedAll, placedAll, ih, List.append_assoc]

mutual
/-- The bodies after one was inserted are those from before, and those of the new body within the one it was inserted into. -/
theorem insert_placed (M : Motion R V Q) (q : String → Q) (p : String) (c : Body R V Q) : ∀ (g : Pose R V) (b : Body R V Q) (x : Placed R V Q), x ∈ (Body.insert p c b).placed M q g →
    x ∈ b.placed M q g ∨ ∃ y ∈ b.placed M q g, y.name = p ∧ x ∈ c.placed M q y.pose
  | g, ⟨n, r, i, bs⟩, x, hx => by
    rw [Body.insert] at hx
    rw [Body.placed]
    by_cases e : n = p
    · rw [if_pos e, Body.placed, placedAll_append, List.mem_cons, List.mem_append] at hx
      rcases hx with hx | hx | hx
      · exact .inl (List.mem_cons.2 (.inl hx))
      · rcases insertAll_placed M q p c _ bs x hx with h | ⟨h, h1, h2⟩
        · exact .inl (List.mem_cons_of_mem _ h)
        · exact .inr ⟨h, List.mem_cons_of_mem _ h1, h2⟩
      · rw [placedAll, placedAll, List.append_nil] at hx
        exact .inr ⟨_, List.mem_cons_self, e, hx⟩
    · rw [if_neg e, Body.placed, List.mem_cons] at hx
      rcases hx with hx | hx
      · exact .inl (List.mem_cons.2 (.inl hx))
      · rcases insertAll_placed M q p c _ bs x hx with h | ⟨h, h1, h2⟩
        · exact .inl (List.mem_cons_of_mem _ h)
        · exact .inr ⟨h, List.mem_cons_of_mem _ h1, h2⟩
theorem insertAll_placed (M : Motion R V Q) (q : String → Q) (p : String) (c : Body R V Q) : ∀ (g : Pose R V) (bs : List (Body R V Q)) (x : Placed R V Q), x ∈ placedAll M q g (insertAll p c bs) →
    x ∈ placedAll M q g bs ∨ ∃ y ∈ placedAll M q g bs, y.name = p ∧ x ∈ c.placed M q y.pose
  | g, [], x, hx => by simp [insertAll, placedAll] at hx
  | g, b :: bs, x, hx => by
    rw [insertAll, placedAll, List.mem_append] at hx
    rw [placedAll]
    simp only [List.mem_append]
    rcases hx with hx | hx
    · rcases insert_placed M q p c g b x hx with h | ⟨h, h1, h2⟩
      · exact .inl (.inl h)
      · exact .inr ⟨h, .inl h1, h2⟩
    · rcases insertAll_placed M q p c g bs x hx with h | ⟨h, h1, h2⟩
      · exact .inl (.inr h)
      · exact .inr ⟨h, .inr h1, h2⟩
end

/-! ## Meshes -/

mutual
theorem first_names (p : String) (e : Item R V Q) : ∀ b : Body R V Q, (b.first p e).names = b.names
  | ⟨n, q, i, bs⟩ => by rw [Body.first, names_mk, names_mk, firstAll_names p e bs]
theorem firstAll_names (p : String) (e : Item R V Q) : ∀ bs : List (Body R V Q), namesAll (firstAll p e bs) = namesAll bs
  | [] => rfl
  | b :: bs => by rw [firstAll, namesAll_cons, namesAll_cons, first_names p e b, firstAll_names p e bs]
end

theorem motion_cons_geom (M : Motion R V Q) (q : String → Q) {e : Item R V Q} (he : e.kind ≠ .joint) (i : List (Item R V Q)) : motion M q (e :: i) = motion M q i := by
  unfold motion
  rw [List.filter_cons_of_neg (by simpa using he)]

/-- The body with the additional element. -/
def Placed.first (p : String) (e : Item R V Q) (x : Placed R V Q) : Placed R V Q := ⟨x.name, if x.name = p then e :: x.items else x.items, x.pose⟩

mutual
theorem first_placed (M : Motion R V Q) (q : String → Q) (p : String) {e : Item R V Q} (he : e.kind ≠ .joint) : ∀ (g : Pose R V) (b : Body R V Q), (b.first p e).placed M q g = (b.placed M q g).map (Placed.first p e)
  | g, ⟨n, r, i, bs⟩ => by
    have hm : motion M q (if n = p then e :: i else i) = motion M q i := by
      split
      · exact motion_cons_geom M q he i
      · rfl
    rw [Body.first, Body.placed, Body.placed, hm, List.map_cons, firstAll_placed M q p he _ bs]
    rfl
theorem firstAll_placed (M : Motion R V Q) (q : String → Q) (p : String) {e : Item R V Q} (he : e.kind ≠ .joint) : ∀ (g : Pose R V) (bs : List (Body R V Q)),
    placedAll M q g (firstAll p e bs) = (placedAll M q g bs).map (Placed.first p e)
  | g, [] => rfl
  | g, b :: bs => by rw [firstAll, placedAll, placedAll, List.map_append, first_placed M q p he _ b, firstAll_placed M q p he _ bs]
end

mutual
theorem seen_placed (M : Motion R V Q) (q : String → Q) : ∀ (g : Pose R V) (b : Body R V Q), b.seen M q g = (b.placed M q g).flatMap fun x => x.items.filterMap (Item.seen x.pose)
  | g, ⟨n, p, i, bs⟩ => by rw [Body.seen, Body.placed, List.flatMap_cons, seenAll_placed M q _ bs]
theorem seenAll_placed (M : Motion R V Q) (q : String → Q) : ∀ (g : Pose R V) (bs : List (Body R V Q)), seenAll M q g bs = (placedAll M q g bs).flatMap fun x => x.items.filterMap (Item.seen x.pose)
  | g, [] => rfl
  | g, b :: bs => by rw [seenAll, placedAll, List.flatMap_append, seen_placed M q _ b, seenAll_placed M q _ bs]
end

/-! ## All nodes -/

/-- The bodies are those of the nodes with the names `made`, at their poses. -/
structure Inv (r : Robot R V Q) (M : Motion R V Q) (q : String → Q) (g : Pose R V) (global : String → Pose R V) (st : Body R V Q × List String) : Prop where
  names : st.1.names.Perm st.2
  nodup : st.2.Nodup
  root : r.root.name ∈ st.2
  placed : ∀ x ∈ st.1.placed M q g, ∃ n ∈ r.nodes, x.name = n.name ∧ x.items = n.items false ∧ x.pose = global n.name

theorem node_motion (M : Motion R V Q) (q : String → Q) (n : Node R V Q) : motion M q (n.items false) = n.motion M q := by
  unfold motion Node.items Node.motion
  cases n.isJoint <;> cases n.massless <;> simp [jointItem, inertialItem]

theorem nodeBody_placed (M : Motion R V Q) (q : String → Q) (g : Pose R V) (n : Node R V Q) :
    (nodeBody n).placed M q g = [⟨n.name, n.items false, g * (if n.parent.isSome then n.tf else 1) * n.motion M q⟩] := by
  rw [← node_motion]
  rfl

theorem Robot.get_some {r : Robot R V Q} {p : String} (h : ∃ m ∈ r.nodes, m.name = p) : ∃ m ∈ r.nodes, m.name = p ∧ r.get p = some m := by
  unfold Robot.get
  cases hf : r.nodes.find? fun m => m.name = p with
  | none =>
    obtain ⟨m, hm, hp⟩ := h
    have := List.find?_eq_none.1 hf m hm
    simp [hp] at this
  | some m => exact ⟨m, List.mem_of_find?_eq_some hf, by simpa using List.find?_some hf, rfl⟩

theorem addNodeBody_spec {r : Robot R V Q} {depth : String → ℕ} (hr : r.Proper depth) {M : Motion R V Q} {q : String → Q} {g : Pose R V} {global : String → Pose R V} (hg : r.Poses M q g global) (k : ℕ) :
    ∀ (n : Node R V Q) (st : Body R V Q × List String), n ∈ r.nodes → depth n.name < k → Inv r M q g global st →
      ∃ st', addNodeBody r k n st = some st' ∧ Inv r M q g global st' ∧ n.name ∈ st'.2 ∧ (∀ x ∈ st.2, x ∈ st'.2) ∧ ∀ x ∈ st'.2, x ∈ st.2 ∨ (depth x ≤ depth n.name ∧ ∃ m ∈ r.nodes, m.name = x) := by
  induction k with
  | zero =>
    intro n st hn hd
    omega
  | succ k ih =>
    intro n st hn hd hi
    rw [addNodeBody]
    by_cases hm : n.name ∈ st.2
    · rw [if_pos hm]
      exact ⟨st, rfl, hi, hm, fun x hx => hx, fun x hx => .inl hx⟩
    · rw [if_neg hm]
      have hne : n.name ≠ r.root.name := fun h => hm (h ▸ hi.root)
      obtain ⟨p, hp, hex, hdp⟩ := hr.step n hn hne
      obtain ⟨m, hmn, hmp, hget⟩ := Robot.get_some hex
      rw [hp]
      simp only
      have hpar : ∃ st', (if p ∈ st.2 then some st else (r.get p).bind fun m => addNodeBody r k m st) = some st' ∧ Inv r M q g global st' ∧ p ∈ st'.2 ∧ (∀ x ∈ st.2, x ∈ st'.2) ∧
          ∀ x ∈ st'.2, x ∈ st.2 ∨ (depth x ≤ depth p ∧ ∃ m ∈ r.nodes, m.name = x) := by
        by_cases hps : p ∈ st.2
        · rw [if_pos hps]
          exact ⟨st, rfl, hi, hps, fun x hx => hx, fun x hx => .inl hx⟩
        · rw [if_neg hps, hget]
          have := ih m st hmn (by rw [hmp]; omega) hi
          rw [hmp] at this
          exact this
      obtain ⟨st', he, hi', hps, hsub, hnew⟩ := hpar
      rw [he]
      simp only
      have hnn : n.name ∉ st'.2 := by
        intro h
        rcases hnew _ h with h | h
        · exact hm h
        · omega
      refine ⟨_, rfl, ⟨?_, ?_, ?_, ?_⟩, ?_, ?_, ?_⟩
      · refine List.Perm.trans (insert_names p (nodeBody n) st'.1 (hi'.names.symm.subset hps) (hi'.names.symm.nodup hi'.nodup)) ?_
        have : (nodeBody n).names = [n.name] := rfl
        rw [this]
        exact List.Perm.append_right _ hi'.names
      · exact List.nodup_append.2 ⟨hi'.nodup, by simp, fun a ha b hb h => hnn (by rw [List.mem_singleton] at hb; rw [← hb, ← h]; exact ha)⟩
      · simp [hi'.root]
      · intro x hx
        rcases insert_placed M q p (nodeBody n) g st'.1 x hx with h | ⟨y, hy, hyn, hx⟩
        · exact hi'.placed x h
        · rw [nodeBody_placed, List.mem_singleton] at hx
          obtain ⟨z, hz, hzn, _, hzp⟩ := hi'.placed y hy
          refine ⟨n, hn, by rw [hx], by rw [hx], ?_⟩
          rw [hx, hg.node n hn p hp, hp]
          simp only [Option.isSome_some, if_true]
          rw [hzp, ← hzn, hyn]
      · simp
      · intro x hx
        exact List.mem_append_left _ (hsub x hx)
      · intro x hx
        rcases List.mem_append.1 hx with hx | hx
        · rcases hnew x hx with h | h
          · exact .inl h
          · exact .inr ⟨by omega, h.2⟩
        · rw [List.mem_singleton] at hx
          exact .inr ⟨by rw [hx], n, hn, hx.symm⟩

theorem addNodes_spec {r : Robot R V Q} {depth : String → ℕ} (hr : r.Proper depth) {M : Motion R V Q} {q : String → Q} {g : Pose R V} {global : String → Pose R V} (hg : r.Poses M q g global) {k : ℕ}
    (hk : ∀ n ∈ r.nodes, depth n.name < k) : ∀ (ns : List (Node R V Q)) (st : Body R V Q × List String), (∀ n ∈ ns, n ∈ r.nodes) → Inv r M q g global st → (∀ x ∈ st.2, ∃ m ∈ r.nodes, m.name = x) →
      ∃ st', addNodes r k ns st = some st' ∧ Inv r M q g global st' ∧ (∀ n ∈ ns, n.name ∈ st'.2) ∧ (∀ x ∈ st.2, x ∈ st'.2) ∧ ∀ x ∈ st'.2, ∃ m ∈ r.nodes, m.name = x := by
  intro ns
  induction ns with
  | nil => exact fun st _ hi hx => ⟨st, rfl, hi, by simp, fun x hx => hx, hx⟩
  | cons n ns ih =>
    intro st hn hi hx
    obtain ⟨st1, h1, hi1, hn1, hs1, ho1⟩ := addNodeBody_spec hr hg k n st (hn n (by simp)) (hk n (hn n (by simp))) hi
    have hx1 : ∀ x ∈ st1.2, ∃ m ∈ r.nodes, m.name = x := by
      intro x h
      rcases ho1 x h with h | h
      · exact hx x h
      · exact h.2
    obtain ⟨st2, h2, hi2, hn2, hs2, ho2⟩ := ih st1 (fun m hm => hn m (List.mem_cons_of_mem _ hm)) hi1 hx1
    refine ⟨st2, by rw [addNodes, h1]; exact h2, hi2, ?_, fun x hx => hs2 x (hs1 x hx), ho2⟩
    intro m hm
    rcases List.mem_cons.1 hm with rfl | hm
    · exact hs2 _ hn1
    · exact hn2 m hm

theorem makeNodeBodies_spec {r : Robot R V Q} {depth : String → ℕ} (hr : r.Proper depth) {M : Motion R V Q} {q : String → Q} {g : Pose R V} {global : String → Pose R V} (hg : r.Poses M q g global) {k : ℕ}
    (hk : ∀ n ∈ r.nodes, depth n.name < k) : ∃ st, makeNodeBodies r k = some st ∧ Inv r M q g global st ∧ st.1.names.Perm (r.nodes.map (·.name)) := by
  have hstart : Inv r M q g global (nodeBody r.root, [r.root.name]) := by
    refine ⟨List.Perm.refl _, by simp, by simp, ?_⟩
    intro x hx
    rw [nodeBody_placed, List.mem_singleton] at hx
    refine ⟨r.root, hr.root, by rw [hx], by rw [hx], ?_⟩
    rw [hx, hg.root, hr.top]
    simp
  obtain ⟨st, h1, h2, h3, _, h5⟩ := addNodes_spec hr hg hk r.nodes (nodeBody r.root, [r.root.name]) (fun n hn => hn) hstart (by
    intro x hx
    rw [List.mem_singleton] at hx
    exact ⟨_, hr.root, hx.symm⟩)
  refine ⟨st, h1, h2, h2.names.trans ?_⟩
  rw [List.perm_ext_iff_of_nodup h2.nodup hr.names]
  intro x
  constructor
  · intro hx
    obtain ⟨m, hm, e⟩ := h5 x hx
    exact List.mem_map.2 ⟨m, hm, e⟩
  · intro hx
    obtain ⟨m, hm, rfl⟩ := List.mem_map.1 hx
    exact h3 m hm

theorem addMeshes_placed (M : Motion R V Q) (q : String → Q) (g : Pose R V) : ∀ (ns : List (Node R V Q)) (b : Body R V Q), (ns.map (·.name)).Nodup → (addMeshes ns b).names = b.names ∧
    ∀ x ∈ (addMeshes ns b).placed M q g, ∃ y ∈ b.placed M q g, x.name = y.name ∧ x.pose = y.pose ∧
      ((∀ n ∈ ns, n.name ≠ x.name) → x.items = y.items) ∧ ∀ n ∈ ns, n.name = x.name → x.items = (if n.mesh then [geomItem n] else []) ++ y.items := by
  intro ns
  induction ns with
  | nil => exact fun b _ => ⟨rfl, fun x hx => ⟨x, hx, rfl, rfl, fun _ => rfl, by simp⟩⟩
  | cons n ns ih =>
    intro b hn
    rw [List.map_cons, List.nodup_cons] at hn
    obtain ⟨h1, h2⟩ := ih (if n.mesh then b.first n.name (geomItem n) else b) hn.2
    rw [addMeshes]
    refine ⟨?_, ?_⟩
    · rw [h1]
      split
      · exact first_names _ _ _
      · rfl
    · intro x hx
      obtain ⟨y, hy, e1, e2, e3, e4⟩ := h2 x hx
      have hy' : ∃ z ∈ b.placed M q g, y.name = z.name ∧ y.pose = z.pose ∧ y.items = if n.mesh = true ∧ z.name = n.name then geomItem n :: z.items else z.items := by
        by_cases hm : n.mesh = true
        · rw [if_pos hm, first_placed M q n.name (by simp [geomItem])] at hy
          obtain ⟨z, hz, rfl⟩ := List.mem_map.1 hy
          exact ⟨z, hz, rfl, rfl, by simp [Placed.first, hm]⟩
        · rw [if_neg hm] at hy
          exact ⟨y, hy, rfl, rfl, by simp [hm]⟩
      obtain ⟨z, hz, f1, f2, f3⟩ := hy'
      refine ⟨z, hz, e1.trans f1, e2.trans f2, ?_, ?_⟩
      · intro h
        rw [e3 fun m hm => h m (List.mem_cons_of_mem _ hm), f3, if_neg]
        rintro ⟨_, h'⟩
        exact h n (by simp) (by rw [← h', e1, f1])
      · intro m hm hmx
        rcases List.mem_cons.1 hm with rfl | hm
        · rw [e3, f3, show z.name = m.name by rw [hmx, e1, f1]]
          · by_cases hmm : m.mesh = true <;> simp [hmm]
          · intro l hl hlx
            exact hn.1 (List.mem_map.2 ⟨l, hl, by rw [hlx, hmx]⟩)
        · have hneg : ¬ (n.mesh = true ∧ z.name = n.name) := by
            rintro ⟨_, h'⟩
            exact hn.1 (List.mem_map.2 ⟨m, hm, by rw [hmx, e1, f1, h']⟩)
          rw [if_neg hneg] at f3
          rw [e4 m hm hmx, f3]

/-! ## Which body is in which -/

theorem pairsAll_append (n : String) (bs cs : List (Body R V Q)) : pairsAll n (bs ++ cs) = pairsAll n bs ++ pairsAll n cs := by
  induction bs with
  | nil => rfl
  | cons b bs ih => rw [List.cons_append, pairsAll, pairsAll, ih, List.append_assoc]

theorem insert_name (p : String) (c b : Body R V Q) : (Body.insert p c b).name = b.name := by
  cases b
  rw [Body.insert]
  split <;> rfl

mutual
theorem insert_pairs (p : String) (c : Body R V Q) : ∀ (b : Body R V Q) (x : String × String), x ∈ (Body.insert p c b).pairs → x ∈ b.pairs ∨ x ∈ c.pairs ∨ x = (p, c.name)
  | ⟨n, r, i, bs⟩, x, hx => by
    rw [Body.insert] at hx
    by_cases e : n = p
    · rw [if_pos e, Body.pairs, pairsAll_append, List.mem_append] at hx
      rcases hx with hx | hx
      · exact insertAll_pairs p c n bs x hx
      · rw [pairsAll, pairsAll, List.append_nil, List.mem_cons] at hx
        rcases hx with hx | hx
        · exact .inr (.inr (by rw [hx, e]))
        · exact .inr (.inl hx)
    · rw [if_neg e, Body.pairs] at hx
      exact insertAll_pairs p c n bs x hx
theorem insertAll_pairs (p : String) (c : Body R V Q) (n : String) : ∀ (bs : List (Body R V Q)) (x : String × String), x ∈ pairsAll n (insertAll p c bs) → x ∈ pairsAll n bs ∨ x ∈ c.pairs ∨ x = (p, c.name)
  | [], x, hx => .inl hx
  | b :: bs, x, hx => by
    rw [insertAll, pairsAll, insert_name, List.cons_append, List.mem_cons, List.mem_append] at hx
    rw [pairsAll, List.cons_append, List.mem_cons, List.mem_append]
    rcases hx with hx | hx | hx
    · exact .inl (.inl hx)
    · rcases insert_pairs p c b x hx with h | h
      · exact .inl (.inr (.inl h))
      · exact .inr h
    · rcases insertAll_pairs p c n bs x hx with h | h
      · exact .inl (.inr (.inr h))
      · exact .inr h
end

/-- Every body is in the body of the parent of its node. -/
def InParent (r : Robot R V Q) (b : Body R V Q) : Prop := ∀ x ∈ b.pairs, ∃ n ∈ r.nodes, n.name = x.2 ∧ n.parent = some x.1

theorem addNodeBody_pairs (r : Robot R V Q) (k : ℕ) : ∀ (n : Node R V Q) (st st' : Body R V Q × List String), n ∈ r.nodes → addNodeBody r k n st = some st' → InParent r st.1 → InParent r st'.1 := by
  induction k with
  | zero =>
    intro n st st' _ h
    rw [addNodeBody] at h
    cases h
  | succ k ih =>
    intro n st st' hn h hi
    rw [addNodeBody] at h
    split at h
    · cases h
      exact hi
    · split at h
      · cases h
      · next p hp =>
        split at h
        · cases h
        · next st1 h1 =>
          have hi1 : InParent r st1.1 := by
            split at h1
            · cases h1
              exact hi
            · cases hg : r.get p with
              | none =>
                rw [hg] at h1
                cases h1
              | some m =>
                rw [hg] at h1
                exact ih m st st1 (List.mem_of_find?_eq_some hg) h1 hi
          cases h
          intro x hx
          rcases insert_pairs p (nodeBody n) st1.1 x hx with h | h | h
          · exact hi1 x h
          · simp [nodeBody, Body.pairs, pairsAll] at h
          · exact ⟨n, hn, by rw [h]; rfl, by rw [h, hp]⟩

theorem addNodes_pairs (r : Robot R V Q) (k : ℕ) : ∀ (ns : List (Node R V Q)) (st st' : Body R V Q × List String), (∀ n ∈ ns, n ∈ r.nodes) → addNodes r k ns st = some st' → InParent r st.1 → InParent r st'.1 := by
  intro ns
  induction ns with
  | nil =>
    intro st st' _ h hi
    cases h
    exact hi
  | cons n ns ih =>
    intro st st' hn h hi
    rw [addNodes] at h
    split at h
    · cases h
    · next st1 h1 => exact ih st1 st' (fun m hm => hn m (List.mem_cons_of_mem _ hm)) h (addNodeBody_pairs r k n st st1 (hn n (by simp)) h1 hi)

theorem first_name (p : String) (e : Item R V Q) (b : Body R V Q) : (b.first p e).name = b.name := by
  cases b
  rfl

mutual
theorem first_pairs (p : String) (e : Item R V Q) : ∀ b : Body R V Q, (b.first p e).pairs = b.pairs
  | ⟨n, q, i, bs⟩ => by rw [Body.first, Body.pairs, Body.pairs, firstAll_pairs p e n bs]
theorem firstAll_pairs (p : String) (e : Item R V Q) (n : String) : ∀ bs : List (Body R V Q), pairsAll n (firstAll p e bs) = pairsAll n bs
  | [] => rfl
  | b :: bs => by rw [firstAll, pairsAll, pairsAll, first_name, first_pairs p e b, firstAll_pairs p e n bs]
end

theorem addMeshes_pairs : ∀ (ns : List (Node R V Q)) (b : Body R V Q), (addMeshes ns b).pairs = b.pairs := by
  intro ns
  induction ns with
  | nil => exact fun b => rfl
  | cons n ns ih =>
    intro b
    rw [addMeshes, ih]
    split
    · exact first_pairs _ _ _
    · rfl

/-! ## What the bodies are -/

/-- Every body is that of a node. -/
def OfNodes (r : Robot R V Q) (mesh : List (Node R V Q)) (b : Body R V Q) : Prop :=
  ∀ x ∈ b.all, ∃ n ∈ r.nodes, x.name = n.name ∧ x.pose = (if n.parent.isSome then n.tf else 1) ∧ x.items = n.items (decide (n.name ∈ mesh.map (·.name)))

mutual
theorem insert_mem (p : String) (c : Body R V Q) : ∀ (b x : Body R V Q), x ∈ (Body.insert p c b).all → (∃ y ∈ b.all, x.name = y.name ∧ x.pose = y.pose ∧ x.items = y.items) ∨ x ∈ c.all
  | ⟨n, r, i, bs⟩, x, hx => by
    rw [Body.insert] at hx
    by_cases e : n = p
    · rw [if_pos e, Body.all, List.mem_cons] at hx
      rcases hx with rfl | hx
      · exact .inl ⟨⟨n, r, i, bs⟩, by rw [Body.all]; exact List.mem_cons_self, rfl, rfl, rfl⟩
      · obtain ⟨d, hd, hx⟩ := mem_allAll.1 hx
        rcases List.mem_append.1 hd with hd | hd
        · rcases insertAll_mem p c bs x (mem_allAll.2 ⟨d, hd, hx⟩) with ⟨y, hy, h⟩ | h
          · exact .inl ⟨y, by rw [Body.all]; exact List.mem_cons_of_mem _ hy, h⟩
          · exact .inr h
        · rw [List.mem_singleton] at hd
          exact .inr (hd ▸ hx)
    · rw [if_neg e, Body.all, List.mem_cons] at hx
      rcases hx with rfl | hx
      · exact .inl ⟨⟨n, r, i, bs⟩, by rw [Body.all]; exact List.mem_cons_self, rfl, rfl, rfl⟩
      · rcases insertAll_mem p c bs x hx with ⟨y, hy, h⟩ | h
        · exact .inl ⟨y, by rw [Body.all]; exact List.mem_cons_of_mem _ hy, h⟩
        · exact .inr h
theorem insertAll_mem (p : String) (c : Body R V Q) : ∀ (bs : List (Body R V Q)) (x : Body R V Q), x ∈ allAll (insertAll p c bs) → (∃ y ∈ allAll bs, x.name = y.name ∧ x.pose = y.pose ∧ x.items = y.items) ∨ x ∈ c.all
  | [], x, hx => by simp [insertAll, allAll] at hx
  | b :: bs, x, hx => by
    rw [insertAll, allAll, List.mem_append] at hx
    rw [allAll]
    rcases hx with hx | hx
    · rcases insert_mem p c b x hx with ⟨y, hy, h⟩ | h
      · exact .inl ⟨y, List.mem_append_left _ hy, h⟩
      · exact .inr h
    · rcases insertAll_mem p c bs x hx with ⟨y, hy, h⟩ | h
      · exact .inl ⟨y, List.mem_append_right _ hy, h⟩
      · exact .inr h
end

theorem addNodeBody_nodes (r : Robot R V Q) (k : ℕ) : ∀ (n : Node R V Q) (st st' : Body R V Q × List String), n ∈ r.nodes → addNodeBody r k n st = some st' → OfNodes r [] st.1 → OfNodes r [] st'.1 := by
  induction k with
  | zero =>
    intro n st st' _ h
    rw [addNodeBody] at h
    cases h
  | succ k ih =>
    intro n st st' hn h hi
    rw [addNodeBody] at h
    split at h
    · cases h
      exact hi
    · split at h
      · cases h
      · next p hp =>
        split at h
        · cases h
        · next st1 h1 =>
          have hi1 : OfNodes r [] st1.1 := by
            split at h1
            · cases h1
              exact hi
            · cases hg : r.get p with
              | none =>
                rw [hg] at h1
                cases h1
              | some m =>
                rw [hg] at h1
                exact ih m st st1 (List.mem_of_find?_eq_some hg) h1 hi
          cases h
          intro x hx
          rcases insert_mem p (nodeBody n) st1.1 x hx with ⟨y, hy, e1, e2, e3⟩ | h
          · rw [e1, e2, e3]
            exact hi1 y hy
          · have : (nodeBody n).all = [nodeBody n] := rfl
            rw [this, List.mem_singleton] at h
            exact ⟨n, hn, by rw [h]; rfl, by rw [h]; rfl, by rw [h]; simp [nodeBody, Body.items, Node.items]⟩

theorem addNodes_nodes (r : Robot R V Q) (k : ℕ) : ∀ (ns : List (Node R V Q)) (st st' : Body R V Q × List String), (∀ n ∈ ns, n ∈ r.nodes) → addNodes r k ns st = some st' → OfNodes r [] st.1 → OfNodes r [] st'.1 := by
  intro ns
  induction ns with
  | nil =>
    intro st st' _ h hi
    cases h
    exact hi
  | cons n ns ih =>
    intro st st' hn h hi
    rw [addNodes] at h
    split at h
    · cases h
    · next st1 h1 => exact ih st1 st' (fun m hm => hn m (List.mem_cons_of_mem _ hm)) h (addNodeBody_nodes r k n st st1 (hn n (by simp)) h1 hi)

mutual
theorem first_mem (p : String) (e : Item R V Q) : ∀ (b x : Body R V Q), x ∈ (b.first p e).all → ∃ y ∈ b.all, x.name = y.name ∧ x.pose = y.pose ∧ x.items = if y.name = p then e :: y.items else y.items
  | ⟨n, r, i, bs⟩, x, hx => by
    rw [Body.first, Body.all, List.mem_cons] at hx
    rw [Body.all]
    rcases hx with rfl | hx
    · exact ⟨_, List.mem_cons_self, rfl, rfl, rfl⟩
    · obtain ⟨y, hy, h⟩ := firstAll_mem p e bs x hx
      exact ⟨y, List.mem_cons_of_mem _ hy, h⟩
theorem firstAll_mem (p : String) (e : Item R V Q) : ∀ (bs : List (Body R V Q)) (x : Body R V Q), x ∈ allAll (firstAll p e bs) → ∃ y ∈ allAll bs, x.name = y.name ∧ x.pose = y.pose ∧ x.items = if y.name = p then e :: y.items else y.items
  | [], x, hx => by simp [firstAll, allAll] at hx
  | b :: bs, x, hx => by
    rw [firstAll, allAll, List.mem_append] at hx
    rw [allAll]
    rcases hx with hx | hx
    · obtain ⟨y, hy, h⟩ := first_mem p e b x hx
      exact ⟨y, List.mem_append_left _ hy, h⟩
    · obtain ⟨y, hy, h⟩ := firstAll_mem p e bs x hx
      exact ⟨y, List.mem_append_right _ hy, h⟩
end

theorem addMeshes_nodes (r : Robot R V Q) (hr : (r.nodes.map (·.name)).Nodup) : ∀ (ns done : List (Node R V Q)) (b : Body R V Q), done ++ ns = r.nodes → OfNodes r done b → OfNodes r r.nodes (addMeshes ns b) := by
  intro ns
  induction ns with
  | nil =>
    intro done b h hb
    rw [List.append_nil] at h
    exact h ▸ hb
  | cons n ns ih =>
    intro done b h hb
    rw [addMeshes]
    refine ih (done ++ [n]) _ (by rw [List.append_assoc]; exact h) ?_
    have hn : n ∈ r.nodes := by rw [← h]; simp
    have hnd : n.name ∉ done.map (·.name) := by
      intro hm
      rw [← h, List.map_append, List.map_cons] at hr
      exact (List.nodup_append.1 hr).2.2 _ hm _ List.mem_cons_self rfl
    intro x hx
    have hx' : ∃ y ∈ b.all, x.name = y.name ∧ x.pose = y.pose ∧ x.items = if n.mesh = true ∧ y.name = n.name then geomItem n :: y.items else y.items := by
      by_cases hm : n.mesh = true
      · rw [if_pos hm] at hx
        obtain ⟨y, hy, e1, e2, e3⟩ := first_mem _ _ _ _ hx
        exact ⟨y, hy, e1, e2, by simp [e3, hm]⟩
      · rw [if_neg hm] at hx
        exact ⟨x, hx, rfl, rfl, by simp [hm]⟩
    obtain ⟨y, hy, e1, e2, e3⟩ := hx'
    obtain ⟨m, hm, f1, f2, f3⟩ := hb y hy
    refine ⟨m, hm, e1.trans f1, e2.trans f2, ?_⟩
    rw [e3, f3, f1]
    by_cases hmn : m.name = n.name
    · have : m = n := List.inj_on_of_nodup_map hr hm hn hmn
      subst this
      rw [decide_eq_false hnd, decide_eq_true (by simp)]
      unfold Node.items
      cases m.mesh <;> simp
    · rw [if_neg (fun h => hmn h.2)]
      congr 1
      simp [hmn]

/-- The bodies of the document, before those without mass are removed. -/
theorem built_nodes {r : Robot R V Q} {depth : String → ℕ} (hr : r.Proper depth) {k : ℕ} {st : Body R V Q × List String} (hst : makeNodeBodies r k = some st) : OfNodes r r.nodes (addMeshes r.nodes st.1) := by
  refine addMeshes_nodes r hr.names r.nodes [] st.1 rfl (addNodes_nodes r k r.nodes _ st (fun n hn => hn) hst ?_)
  intro x hx
  have : (nodeBody r.root).all = [nodeBody r.root] := rfl
  rw [this, List.mem_singleton] at hx
  exact ⟨r.root, hr.root, by rw [hx]; rfl, by rw [hx]; rfl, by rw [hx]; simp [nodeBody, Body.items, Node.items]⟩

theorem built_faithful {r : Robot R V Q} {depth : String → ℕ} (hr : r.Proper depth) {k : ℕ} {st : Body R V Q × List String} (hst : makeNodeBodies r k = some st) : Faithful r.loc (addMeshes r.nodes st.1) := by
  intro x hx c hc
  have key : ∀ {x c b : Body R V Q}, x ∈ b.all → c ∈ x.bodies → c ∈ b.all := by
    intro x c b
    have : ∀ (k : ℕ) (b : Body R V Q), b.all.length ≤ k → x ∈ b.all → c ∈ x.bodies → c ∈ b.all := by
      intro k
      induction k with
      | zero =>
        intro b h
        rw [Body.all_eq] at h
        simp at h
      | succ k ih =>
        intro b h hx hc
        rcases mem_all.1 hx with rfl | ⟨d, hd, hx⟩
        · exact mem_all.2 (.inr ⟨c, hc, by simp [Body.all_eq]⟩)
        · exact mem_all.2 (.inr ⟨d, hd, ih d (by have := child_length hd; omega) hx hc⟩)
    exact this _ b le_rfl
  obtain ⟨n, hn, e1, e2, _⟩ := built_nodes hr hst c (key hx hc)
  obtain ⟨m, hm, hmn, hget⟩ := Robot.get_some (r := r) ⟨n, hn, rfl⟩
  have : m = n := List.inj_on_of_nodup_map hr.names hm hn hmn
  subst this
  unfold Robot.loc
  rw [e2, e1, hget]

theorem items_plain (n : Node R V Q) (mesh : Bool) (hm : hasMass (n.items mesh) = false) : ∀ e ∈ n.items mesh, e.kind = .joint := by
  intro e he
  have h : ∀ e ∈ n.items mesh, e.kind = .joint ∨ e.kind = .geom ∨ e.kind = .inertial := by
    intro e he
    unfold Node.items at he
    simp only [List.mem_append] at he
    rcases he with (he | he) | he
    · split at he <;> simp_all [geomItem]
    · split at he <;> simp_all [jointItem]
    · split at he <;> simp_all [inertialItem]
  unfold hasMass at hm
  rw [List.any_eq_false] at hm
  have := hm e he
  rcases h e he with h | h | h
  · exact h
  · simp [h] at this
  · simp [h] at this

theorem built_plain {r : Robot R V Q} {depth : String → ℕ} (hr : r.Proper depth) {k : ℕ} {st : Body R V Q × List String} (hst : makeNodeBodies r k = some st) : Plain (addMeshes r.nodes st.1) := by
  intro x hx hm e he
  obtain ⟨n, hn, _, _, e3⟩ := built_nodes hr hst x hx
  rw [e3] at hm he
  exact items_plain n _ hm e he

end

end Simox.Mjc
