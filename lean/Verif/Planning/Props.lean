import Verif.Planning.Lemmas

/-!
# Properties C11 – C15: C-space node pool and RRT tree
-/

namespace Simox.Planning

open Spec

variable {Q : Type}

/-! ## C11 -/

/-- **C11.** Over any history of a client that removes only nodes it holds: the nodes held are
pairwise distinct and below the capacity, held plus free is the capacity, creation fails exactly
when all nodes are held, and a created node is one not held before. -/
theorem C11_pool_never_hands_out_twice (cap : Nat) (q0 : Q) (ops : List POp) :
    let s := prun (Pool.new cap q0, []) ops
    s.2.Nodup ∧ (∀ i ∈ s.2, i < cap) ∧ s.2.length + s.1.free.length = cap ∧
      (s.1.createNewNode = none ↔ s.2.length = cap) ∧
      (∀ i p, s.1.createNewNode = some (i, p) → i ∉ s.2 ∧ i < cap) := by
  intro s
  obtain ⟨h, hc⟩ := prun_inv (Pool.new cap q0, []) ops (pinv_range _ rfl)
  have hc : s.1.cap = cap := hc
  have hcount := h.count
  refine ⟨h.heldNodup, fun i hi => hc ▸ h.heldLt i hi, hc ▸ hcount, ?_, ?_⟩
  · unfold Pool.createNewNode
    have : s.2.length + s.1.free.length = cap := hc ▸ hcount
    cases hf : s.1.free with
    | nil => simp [hf] at this; simp [this]
    | cons i r => simp [hf] at this; simp; omega
  · intro i p e
    unfold Pool.createNewNode at e
    cases hf : s.1.free with
    | nil => simp [hf] at e
    | cons j r =>
      simp [hf] at e
      obtain ⟨rfl, _⟩ := e
      have hm : j ∈ s.1.free := by rw [hf]; exact List.mem_cons_self ..
      exact ⟨fun hh => h.disj j hh hm, hc ▸ h.freeLt j hm⟩

/-- The side condition of C11 is needed: removing a node twice makes the pool hand it out twice. -/
theorem C11_double_removal_hands_out_twice (cap : Nat) (hcap : 0 < cap) (q0 : Q) :
    ∃ i p1 p2 p3, (Pool.new cap q0).createNewNode = some (i, p1) ∧
      ((p1.removeNode i).removeNode i).createNewNode = some (i, p2) ∧
      p2.createNewNode = some (i, p3) := by
  obtain ⟨n, rfl⟩ : ∃ n, cap = n + 1 := ⟨cap - 1, by omega⟩
  have e : (Pool.new (n + 1) q0).free = n :: (List.range n).reverse := by
    simp [Pool.new, List.range_succ]
  have create : ∀ (p : Pool Q) i r, p.free = i :: r →
      ∃ p', p.createNewNode = some (i, p') ∧ p'.free = r ∧ p'.cap = p.cap := by
    intro p i r hf
    unfold Pool.createNewNode
    rw [hf]
    exact ⟨_, rfl, rfl, rfl⟩
  have remove : ∀ (p : Pool Q), p.cap = n + 1 → (p.removeNode n).free = n :: p.free ∧
      (p.removeNode n).cap = n + 1 := by
    intro p hp
    unfold Pool.removeNode
    rw [if_neg (by omega)]
    exact ⟨rfl, hp⟩
  obtain ⟨p1, e1, _, hc1⟩ := create _ _ _ e
  obtain ⟨f1, g1⟩ := remove p1 hc1
  obtain ⟨f2, _⟩ := remove _ g1
  obtain ⟨p2, e2, f3, _⟩ := create _ _ _ f2
  obtain ⟨p3, e3, _⟩ := create _ _ _ (f3.trans f1)
  exact ⟨n, p1, p2, p3, e1, e2, e3⟩

/-! ## C12 -/

/-- **C12.** After any history of appends, removals and resets on any number of trees sharing one
C-space: lookup of an ID succeeds exactly for nodes of the tree and yields that node, `hasNode`
agrees, nodes are distinct (so the reported number is the number of distinct nodes), and different
trees share no node. -/
theorem C12_tree_lookups_consistent (cap : Nat) (q0 : Q) (ops : List (TOp Q)) (k : Nat) :
    let s := (Sys.new cap q0).run ops
    let ids := (view s k).map (·.1)
    (∀ id n, (s.tree k).getNode id = some n ↔ n = id ∧ id ∈ ids) ∧
    (∀ n, (s.tree k).hasNode n = true ↔ n ∈ ids) ∧
    ids.Nodup ∧ (s.tree k).nrOfNodes = ids.length ∧
    (∀ l, l ≠ k → ∀ i ∈ ids, i ∉ (view s l).map (·.1)) := by
  intro s ids
  have h : Inv s := run_inv (new_inv cap q0) ops
  have hids : ∀ l, (view s l).map (·.1) = (s.tree l).ids := by
    intro l; unfold view; rw [List.map_map]; exact List.map_id _
  have hids' : ids = (s.tree k).ids := hids k
  rw [hids']
  refine ⟨?_, ?_, h.idsNodup k, rfl, ?_⟩
  · intro id n
    unfold Tree.getNode
    rw [h.mapOk k]
    by_cases hi : id ∈ (s.tree k).ids
    · simp [hi, eq_comm]
    · simp [hi]
  · intro n
    unfold Tree.hasNode
    rw [h.mapOk k]
    by_cases hi : n ∈ (s.tree k).ids <;> simp [hi]
  · intro l hl i hi hli
    rw [hids] at hli
    exact hl (h.disj l k i hli hi)

/-- **C12**, effect of an append in any reachable state: exactly one fresh node with the given
configuration and parent is added at the end; no other node of any tree changes. It fails only when
the C-space has no free node. -/
theorem C12_append_effect (cap : Nat) (q0 : Q) (ops : List (TOp Q)) (k : Nat) (q : Q) (par : Int) :
    let s := (Sys.new cap q0).run ops
    let s' := s.step (.append k q par)
    (appendNode s.pool (s.tree k) q par = none ∧ s.pool.free = [] ∧ s' = s) ∨
    ∃ i, (∀ l, i ∉ (view s l).map (·.1)) ∧ view s' k = view s k ++ [(i, q, par)] ∧
      ∀ l, l ≠ k → view s' l = view s l := by
  intro s s'
  have h : Inv s := run_inv (new_inv cap q0) ops
  cases hf : s.pool.free with
  | nil =>
    left
    have := (append_none (s := s) k q par).mpr hf
    exact ⟨this, rfl, by simp only [s', Sys.step, this]⟩
  | cons i rest =>
    right
    obtain ⟨p, e, hc, hp, hq, hpp, hsame, hfresh, _⟩ := append_spec h k q par hf
    have es : s' = { pool := p, tree := upd s.tree k ((s.tree k).add i) } := by
      simp only [s', Sys.step, e]
    have hkeep : ∀ l, (s.tree l).ids.map (fun j => (j, (p.node j).config, (p.node j).parent)) =
        view s l := by
      intro l
      unfold view
      apply List.map_congr_left
      intro j hj
      rw [hsame j (fun e => hfresh l (e ▸ hj))]
    refine ⟨i, ?_, ?_, ?_⟩
    · intro l; simpa [view] using hfresh l
    · rw [es, ← hkeep k]; unfold view; simp [upd, Tree.add, hq, hpp]
    · intro l hl; rw [es, ← hkeep l]; unfold view; simp [upd, hl]

/-- **C12**, effect of a removal in any reachable state: exactly the given node disappears, from
the given tree only. -/
theorem C12_remove_effect (cap : Nat) (q0 : Q) (ops : List (TOp Q)) (k n : Nat) :
    let s := (Sys.new cap q0).run ops
    let s' := s.step (.remove k n)
    view s' k = (view s k).filter (fun e => e.1 ≠ n) ∧ ∀ l, l ≠ k → view s' l = view s l := by
  intro s s'
  have h : Inv s := run_inv (new_inv cap q0) ops
  have hnodes : ∀ j, (s'.pool.node j).config = (s.pool.node j).config ∧
      (s'.pool.node j).parent = (s.pool.node j).parent := by
    intro j
    simp only [s', Sys.step, removeNode]
    split
    · exact ⟨rfl, rfl⟩
    · split
      · unfold Pool.removeNode
        split
        · exact ⟨rfl, rfl⟩
        · by_cases hj : j = n
          · subst hj; simp [upd]
          · simp [upd, hj]
      · exact ⟨rfl, rfl⟩
  have hids : (s'.tree k).ids = (s.tree k).ids.filter (fun e => e ≠ n) ∧
      ∀ l, l ≠ k → s'.tree l = s.tree l := by
    constructor
    · simp only [s', Sys.step, removeNode, upd_same]
      split
      · rename_i hnil; rw [hnil]; rfl
      · split
        · simp only [Tree.del]; rw [(h.idsNodup k).erase_eq_filter]
          apply List.filter_congr; intro x _; by_cases hx : x = n <;> simp [hx]
        · rename_i hn
          rw [List.filter_eq_self.mpr]
          intro a ha; simp; intro e; exact hn (e ▸ ha)
    · intro l hl; simp only [s', Sys.step, upd_ne _ _ hl]
  have hmap : ∀ ids : List Nat, ids.map (fun i => (i, (s'.pool.node i).config, (s'.pool.node i).parent))
      = ids.map (fun i => (i, (s.pool.node i).config, (s.pool.node i).parent)) := by
    intro ids; apply List.map_congr_left; intro i _; rw [(hnodes i).1, (hnodes i).2]
  constructor
  · unfold view; rw [hmap, hids.1, List.filter_map]; rfl
  · intro l hl; unfold view; rw [hmap, hids.2 l hl]

/-! ## C13 -/

/-- **C13.** In every tree built by appending, for every two of its nodes, `createPath` terminates
(with more iterations than nodes allowed), and it reports a path exactly when the start node is the
goal node or an ancestor of it; the path consists of the configurations of the line of nodes from
start to goal, each the parent of the next. -/
theorem C13_create_path_correct (s : Sys Q) (hb : Built s) (k a b : Nat)
    (hbk : b ∈ (view s k).map (·.1)) (fuel : Nat) (hfuel : (view s k).length < fuel) :
    (∃ l, Lineage s k a b l ∧
      createPath s.pool (s.tree k) a b fuel = .path (l.map fun i => (s.pool.node i).config)) ∨
    ((¬ ∃ l, Lineage s k a b l) ∧ createPath s.pool (s.tree k) a b fuel = .failed) := by
  obtain ⟨hi, ht⟩ := built_topo hb
  have hbk : b ∈ (s.tree k).ids := by simpa [view] using hbk
  have hfuel : (s.tree k).ids.length < fuel := by simpa [view] using hfuel
  have hterm := walk_terminates hi k (ht k) a (s.tree k).ids.length b (by simpa using hbk) fuel hfuel []
  unfold createPath
  cases hw : walk s.pool (s.tree k) a fuel (b : Int) [] with
  | running => exact absurd hw hterm
  | found res =>
    left
    obtain ⟨c, e, _, hh, hl, hm, hc⟩ := walk_found hi k a fuel _ _ _ hw
    have e : res = c := by simpa using e
    subst e
    refine ⟨res.reverse, ⟨?_, ?_, ?_, ?_⟩, rfl⟩
    · rw [List.head?_reverse]; exact hl
    · rw [List.getLast?_reverse]; simpa using hh
    · intro i hi; exact hm i (List.mem_reverse.mp hi)
    · rw [List.isChain_reverse]; exact hc
  | notFound =>
    right
    refine ⟨?_, rfl⟩
    rintro ⟨l, h1, h2, h3, h4⟩
    refine walk_not_notFound hi k a l.reverse b fuel [] ?_ ?_ ?_ ?_ hw
    · rw [List.head?_reverse]; exact h2
    · rw [List.getLast?_reverse]; exact h1
    · intro i hi; exact h3 i (List.mem_reverse.mp hi)
    · rw [List.isChain_reverse]; exact h4

/-- The history used in `C13_removal_can_create_cycle`. -/
def cycleHistory (q : Q) : List (TOp Q) :=
  [.append 0 q (-1), .append 0 q 2, .append 0 q 1, .remove 0 1, .append 0 q 0]

/-- Removing a node recycles its ID, so a later append below a descendant of the removed node closes
a cycle of parents, and `createPath` runs forever although both nodes are in the tree. -/
theorem C13_removal_can_create_cycle (q : Q) :
    let s := (Sys.new 3 q).run (cycleHistory q)
    2 ∈ (view s 0).map (·.1) ∧ 0 ∈ (view s 0).map (·.1) ∧
      ∀ fuel, createPath s.pool (s.tree 0) 2 0 fuel matches .running := by
  intro s
  have hids : (s.tree 0).ids = [2, 0, 1] := rfl
  have h0 : (s.pool.node 0).parent = 1 := rfl
  have h1 : (s.pool.node 1).parent = 0 := rfl
  have hinv : Inv s := run_inv (new_inv 3 q) _
  refine ⟨by simp [view, hids], by simp [view, hids], ?_⟩
  have key : ∀ fuel acc, walk s.pool (s.tree 0) 2 fuel 0 acc = .running ∧
      walk s.pool (s.tree 0) 2 fuel 1 acc = .running := by
    intro fuel
    induction fuel with
    | zero => intro acc; exact ⟨rfl, rfl⟩
    | succ f ih =>
      intro acc
      have g0 : (s.tree 0).getNode 0 = some 0 := by
        unfold Tree.getNode; rw [hinv.mapOk, hids]; rfl
      have g1 : (s.tree 0).getNode 1 = some 1 := by
        unfold Tree.getNode; rw [hinv.mapOk, hids]; rfl
      constructor
      · unfold walk
        simp [g0, h0, (ih _).2]
      · unfold walk
        simp [g1, h1, (ih _).1]
  intro fuel
  unfold createPath
  rw [show ((0 : Nat) : Int) = 0 from rfl, (key fuel []).1]

/-! ## C14 -/

/-- **C14.** The nearest-neighbour query on a non-empty tree (reached by any history) returns a node
of the tree; no node is nearer; every node added before it is strictly farther. -/
theorem C14_nearest_is_nearest {K : Type} [LinearOrder K] (cap : Nat) (q0 : Q) (ops : List (TOp Q))
    (k : Nat) (d2 : Q → Q → K) (c : Q) :
    let s := (Sys.new cap q0).run ops
    view s k ≠ [] →
    ∃ before e after, view s k = before ++ e :: after ∧
      nearestNeighbor s.pool (s.tree k) d2 c = some e.1 ∧
      (∀ x ∈ view s k, d2 c e.2.1 ≤ d2 c x.2.1) ∧ ∀ x ∈ before, d2 c e.2.1 < d2 c x.2.1 := by
  intro s hne
  have h : Inv s := run_inv (new_inv cap q0) ops
  unfold nearestNeighbor nearestNeighborID
  cases hids : (s.tree k).ids with
  | nil => exact absurd (by simp [view, hids]) hne
  | cons i is =>
    simp only
    have := nearestLoop_spec (fun j => d2 c (s.pool.node j).config) [i] i is (by simp)
      (by intro j hj; rw [List.mem_singleton] at hj; subst hj; exact le_refl _)
      ⟨[], [], rfl, by simp⟩
    generalize hr : nearestLoop (fun j => d2 c (s.pool.node j).config) i (d2 c (s.pool.node i).config)
      is = r at this
    obtain ⟨h1, h2, p1, p2, e, h3⟩ := this
    have e : (s.tree k).ids = p1 ++ r :: p2 := by rw [hids]; exact e
    let f := fun j => (j, (s.pool.node j).config, (s.pool.node j).parent)
    refine ⟨p1.map f, f r, p2.map f, ?_, ?_, ?_, ?_⟩
    · show (s.tree k).ids.map f = _; rw [e]; simp
    · show (s.tree k).getNode r = some r
      unfold Tree.getNode; rw [h.mapOk k]; rw [e]; simp
    · intro x hx
      have hx : x ∈ (s.tree k).ids.map f := hx
      rw [hids] at hx
      obtain ⟨j, hj, rfl⟩ := List.mem_map.mp hx
      exact h2 j (by simpa using hj)
    · intro x hx
      obtain ⟨j, hj, rfl⟩ := List.mem_map.mp hx
      exact h3 j hj

/-! ## C15 -/

/-- **C15** is violated: resetting a tree never gives anything back to the C-space. -/
theorem C15_reset_releases_nothing (s : Sys Q) (k : Nat) :
    (s.step (.reset k)).pool = s.pool ∧ view (s.step (.reset k)) k = [] := by
  constructor
  · rfl
  · simp [Sys.step, view, upd, Tree.empty]

/-- **C15**, consequence for every capacity: fill one tree, reset it, and although no tree contains
any node the C-space cannot create a single one. -/
theorem C15_full_tree_reset_exhausts (cap : Nat) (q : Q) :
    let s := (Sys.new cap q).run (List.replicate cap (.append 0 q (-1)) ++ [.reset 0])
    (∀ k, view s k = []) ∧ s.pool.createNewNode = none := by
  have hrun : ∀ (a b : List (TOp Q)) (s : Sys Q), s.run (a ++ b) = (s.run a).run b := by
    intro a; induction a with
    | nil => intro b s; rfl
    | cons op a ih => intro b s; exact ih b _
  have key : ∀ n (s : Sys Q), Inv s → s.pool.free.length = n → (∀ k, k ≠ 0 → s.tree k = Tree.empty) →
      (s.run (List.replicate n (.append 0 q (-1)))).pool.free = [] ∧
      ∀ k, k ≠ 0 → (s.run (List.replicate n (.append 0 q (-1)))).tree k = Tree.empty := by
    intro n
    induction n with
    | zero => intro s _ hl ht; exact ⟨List.length_eq_zero_iff.mp hl, ht⟩
    | succ n ih =>
      intro s hs hl ht
      cases hf : s.pool.free with
      | nil => simp [hf] at hl
      | cons i rest =>
        obtain ⟨p, e, hc, hp, _⟩ := append_spec hs 0 q (-1) hf
        rw [List.replicate_succ]
        have es : s.step (.append 0 q (-1)) = { pool := p, tree := upd s.tree 0 ((s.tree 0).add i) } := by
          simp only [Sys.step, e]
        have := ih (s.step (.append 0 q (-1))) (step_inv hs _) (by rw [es]; simp [hp]; simp [hf] at hl; exact hl)
          (by intro k hk; rw [es]; simp only [upd_ne _ _ hk]; exact ht k hk)
        exact this
  intro s
  obtain ⟨h1, h2⟩ := key cap (Sys.new cap q) (new_inv cap q) (by simp [Sys.new, Pool.new])
    (fun _ _ => rfl)
  have es : s = ((Sys.new cap q).run (List.replicate cap (.append 0 q (-1)))).step (.reset 0) := by
    simp only [s, hrun]; rfl
  constructor
  · intro k
    rw [es]
    by_cases hk : k = 0
    · subst hk; exact (C15_reset_releases_nothing _ 0).2
    · simp only [Sys.step, view, upd_ne _ _ hk, h2 k hk]; rfl
  · rw [es]
    show (Pool.createNewNode _) = none
    unfold Pool.createNewNode
    rw [(C15_reset_releases_nothing _ 0).1, h1]

/-- **C15** (partial): removing a node individually, or resetting C-space and trees together, does
release the capacity. -/
theorem C15_release_partial (cap : Nat) (q0 : Q) (ops : List (TOp Q)) (k n : Nat) :
    let s := (Sys.new cap q0).run ops
    (n ∈ (view s k).map (·.1) → ∃ p, (s.step (.remove k n)).pool.createNewNode = some (n, p)) ∧
    (s.step .resetAll).pool.free.length = s.pool.cap := by
  intro s
  have h : Inv s := run_inv (new_inv cap q0) ops
  constructor
  · intro hn
    have hn : n ∈ (s.tree k).ids := by simpa [view] using hn
    have hne : (s.tree k).ids ≠ [] := fun e => by rw [e] at hn; simp at hn
    have hlt := h.idsLt k n hn
    simp only [Sys.step, removeNode, hne, hn, if_false, if_true]
    unfold Pool.removeNode
    rw [if_neg (by omega)]
    exact ⟨_, rfl⟩
  · simp [Sys.step, Pool.reset]

/-! ## Non-vacuity -/

/-- A tree with a branch: root, two children, a grandchild. -/
def exHistory : List (TOp Nat) :=
  [.append 0 10 (-1), .append 0 20 9, .append 0 30 9, .append 0 40 7, .append 1 50 (-1)]

def exSys : Sys Nat := (Sys.new 10 0).run exHistory

example : view exSys 0 = [(9, 10, -1), (8, 20, 9), (7, 30, 9), (6, 40, 7)] := by decide
example : view exSys 1 = [(5, 50, -1)] := by decide
example : Built exSys := by
  refine Built.append 1 50 (-1) (Built.append 0 40 7 (Built.append 0 30 9 (Built.append 0 20 9
    (Built.append 0 10 (-1) (Built.new 10 0) (Or.inl (by decide))) (Or.inr ⟨9, by decide, rfl⟩))
    (Or.inr ⟨9, by decide, rfl⟩)) (Or.inr ⟨7, by decide, rfl⟩)) (Or.inl (by decide))
example : Lineage exSys 0 9 6 [9, 7, 6] := ⟨rfl, rfl, by decide, by
  simp only [List.isChain_cons_cons, List.isChain_singleton, and_true]; decide⟩
example : nearestNeighbor exSys.pool (exSys.tree 0) (fun a b => (a - b) + (b - a)) 29 = some 7 := by
  decide
example : (prun (Pool.new 3 (0 : Nat), []) [.create, .create, .remove 2, .create]).2 = [2, 1] := by
  decide

end Simox.Planning
