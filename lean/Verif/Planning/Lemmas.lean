import Verif.Planning.Spec
import Mathlib.Data.List.Nodup
import Mathlib.Order.Defs.LinearOrder

namespace Simox.Planning

open Spec

variable {Q : Type}

theorem upd_same {α : Type} (f : Nat → α) (i : Nat) (x : α) : upd f i x i = x := by simp [upd]
theorem upd_ne {α : Type} (f : Nat → α) {i j : Nat} (x : α) (h : j ≠ i) : upd f i x j = f j := by
  simp [upd, h]

/-! ## Pool -/

structure PInv (s : Pool Q × List Nat) : Prop where
  freeNodup : s.1.free.Nodup
  heldNodup : s.2.Nodup
  freeLt : ∀ i ∈ s.1.free, i < s.1.cap
  heldLt : ∀ i ∈ s.2, i < s.1.cap
  disj : ∀ i ∈ s.2, i ∉ s.1.free
  count : s.2.length + s.1.free.length = s.1.cap

theorem pinv_range (p : Pool Q) (h : p.free = (List.range p.cap).reverse) : PInv (p, []) where
  freeNodup := by simp only [h]; exact List.nodup_reverse.mpr List.nodup_range
  heldNodup := List.nodup_nil
  freeLt := by intro i hi; simpa [h] using hi
  heldLt := by simp
  disj := by simp
  count := by simp [h]

theorem pstep_inv (s : Pool Q × List Nat) (op : POp) (h : PInv s) : PInv (pstep s op) ∧
    (pstep s op).1.cap = s.1.cap := by
  refine ⟨?_, by
    cases op
    · unfold pstep Pool.createNewNode; cases s.1.free <;> rfl
    · unfold pstep Pool.removeNode; dsimp only; split <;> (try split) <;> rfl
    · rfl⟩
  obtain ⟨p, H⟩ := s
  cases op with
  | create =>
    unfold pstep Pool.createNewNode
    cases hf : p.free with
    | nil => exact h
    | cons i rest =>
      obtain ⟨h1, h2, h3, h4, h5, h6⟩ := h
      simp only [hf] at h1 h3 h5 h6 ⊢
      rw [List.nodup_cons] at h1
      refine ⟨h1.2, ?_, fun j hj => h3 j (List.mem_cons_of_mem _ hj), ?_, ?_, ?_⟩
      · rw [List.nodup_cons]
        exact ⟨fun hi => h5 i hi (List.mem_cons_self ..), h2⟩
      · intro j hj
        rcases List.mem_cons.mp hj with rfl | hj
        · exact h3 _ (List.mem_cons_self ..)
        · exact h4 j hj
      · intro j hj hr
        rcases List.mem_cons.mp hj with rfl | hj
        · exact h1.1 hr
        · exact h5 j hj (List.mem_cons_of_mem _ hr)
      · simp at h6 ⊢; omega
  | remove i =>
    unfold pstep
    by_cases hi : i ∈ H
    · simp only [hi, if_true]
      obtain ⟨h1, h2, h3, h4, h5, h6⟩ := h
      simp only at *
      have hlt := h4 i hi
      unfold Pool.removeNode
      rw [if_neg (by omega)]
      refine ⟨?_, h2.erase _, ?_, ?_, ?_, ?_⟩
      · simp only [List.nodup_cons]; exact ⟨h5 i hi, h1⟩
      · intro j hj
        rcases List.mem_cons.mp hj with rfl | hj
        · exact hlt
        · exact h3 j hj
      · intro j hj; exact h4 j (List.mem_of_mem_erase hj)
      · intro j hj hr
        rcases List.mem_cons.mp hr with rfl | hr
        · exact (h2.not_mem_erase) hj
        · exact h5 j (List.mem_of_mem_erase hj) hr
      · have := List.length_erase_of_mem hi
        have hpos := List.length_pos_of_mem hi
        simp only [List.length_cons]; omega
    · simp only [hi, if_false]; exact h
  | reset => exact pinv_range _ rfl

theorem prun_inv (s : Pool Q × List Nat) (ops : List POp) (h : PInv s) : PInv (prun s ops) ∧
    (prun s ops).1.cap = s.1.cap := by
  induction ops generalizing s with
  | nil => exact ⟨h, rfl⟩
  | cons op ops ih =>
    obtain ⟨h1, h2⟩ := pstep_inv s op h
    obtain ⟨h3, h4⟩ := ih _ h1
    exact ⟨h3, h4.trans h2⟩

/-! ## Trees -/

structure Inv (s : Sys Q) : Prop where
  freeNodup : s.pool.free.Nodup
  freeLt : ∀ i ∈ s.pool.free, i < s.pool.cap
  idsNodup : ∀ k, (s.tree k).ids.Nodup
  idsLt : ∀ k, ∀ i ∈ (s.tree k).ids, i < s.pool.cap
  mapOk : ∀ k i, (s.tree k).map i = if i ∈ (s.tree k).ids then some i else none
  disjFree : ∀ k, ∀ i ∈ (s.tree k).ids, i ∉ s.pool.free
  disj : ∀ k l i, i ∈ (s.tree k).ids → i ∈ (s.tree l).ids → k = l

theorem inv_empty (p : Pool Q) (h : p.free = (List.range p.cap).reverse) :
    Inv { pool := p, tree := fun _ => Tree.empty } where
  freeNodup := by simp only [h]; exact List.nodup_reverse.mpr List.nodup_range
  freeLt := by intro i hi; simpa [h] using hi
  idsNodup := by intro k; exact List.nodup_nil
  idsLt := by intro k i hi; simp [Tree.empty] at hi
  mapOk := by intro k i; simp [Tree.empty]
  disjFree := by intro k i hi; simp [Tree.empty] at hi
  disj := by intro k l i hi; simp [Tree.empty] at hi

/-- Everything an append does, when there is a free node. -/
theorem append_spec {s : Sys Q} (h : Inv s) (k : Nat) (q : Q) (par : Int) {i : Nat} {rest : List Nat}
    (hf : s.pool.free = i :: rest) :
    ∃ p, appendNode s.pool (s.tree k) q par =
        some (i, p, (s.tree k).add i) ∧
      p.cap = s.pool.cap ∧ p.free = rest ∧
      (p.node i).config = q ∧ (p.node i).parent = par ∧ (∀ j, j ≠ i → p.node j = s.pool.node j) ∧
      (∀ l, i ∉ (s.tree l).ids) ∧ i < s.pool.cap := by
  unfold appendNode Pool.createNewNode
  rw [hf]
  refine ⟨_, rfl, rfl, rfl, by simp [upd], by simp [upd], ?_, ?_, ?_⟩
  · intro j hj; simp [upd, hj]
  · intro l hl; exact h.disjFree l i hl (by rw [hf]; exact List.mem_cons_self ..)
  · exact h.freeLt i (by rw [hf]; exact List.mem_cons_self ..)

theorem append_none {s : Sys Q} (k : Nat) (q : Q) (par : Int) :
    appendNode s.pool (s.tree k) q par = none ↔ s.pool.free = [] := by
  unfold appendNode Pool.createNewNode
  cases s.pool.free <;> simp

theorem append_inv {s : Sys Q} (h : Inv s) (k : Nat) {p : Pool Q} {i : Nat} {rest : List Nat}
    (hf : s.pool.free = i :: rest) (hc : p.cap = s.pool.cap) (hp : p.free = rest) :
    Inv { pool := p, tree := upd s.tree k ((s.tree k).add i) } := by
  have hi : ∀ l, i ∉ (s.tree l).ids := fun l hl =>
    h.disjFree l i hl (by rw [hf]; exact List.mem_cons_self ..)
  have hlt : i < s.pool.cap := h.freeLt i (by rw [hf]; exact List.mem_cons_self ..)
  have hfn := h.freeNodup
  rw [hf, List.nodup_cons] at hfn
  have hmem : ∀ l j, j ∈ (upd s.tree k ((s.tree k).add i) l).ids ↔
        j ∈ (s.tree l).ids ∨ (l = k ∧ j = i) := by
    intro l j
    by_cases hl : l = k
    · subst hl; simp [upd, Tree.add]
    · simp [upd, hl]
  constructor
  · rw [hp]; exact hfn.2
  · intro j hj; simp only [hp] at hj; simp only [hc]
    exact h.freeLt j (by rw [hf]; exact List.mem_cons_of_mem _ hj)
  · intro l
    by_cases hl : l = k
    · subst hl
      simp only [upd_same, Tree.add]
      rw [List.nodup_append]
      refine ⟨h.idsNodup l, List.nodup_singleton i, ?_⟩
      intro a ha b hb
      rw [List.mem_singleton] at hb; subst hb
      intro e; exact hi l (e ▸ ha)
    · simp only [upd_ne _ _ hl]; exact h.idsNodup l
  · intro l j hj
    rw [hmem] at hj
    simp only [hc]
    rcases hj with hj | ⟨_, rfl⟩
    · exact h.idsLt l j hj
    · exact hlt
  · intro l j
    by_cases hl : l = k
    · subst hl
      simp only [upd_same, Tree.add]
      by_cases hj : j = i
      · subst hj; simp [upd]
      · rw [upd_ne _ _ hj, h.mapOk l j]; simp [hj]
    · simp only [upd_ne _ _ hl]; exact h.mapOk l j
  · intro l j hj
    rw [hmem] at hj
    simp only [hp]
    rcases hj with hj | ⟨_, rfl⟩
    · intro hr; exact h.disjFree l j hj (by rw [hf]; exact List.mem_cons_of_mem _ hr)
    · exact hfn.1
  · intro l m j hj hm
    rw [hmem] at hj hm
    rcases hj with hj | ⟨rfl, rfl⟩
    · rcases hm with hm | ⟨rfl, rfl⟩
      · exact h.disj l m j hj hm
      · exact absurd hj (hi l)
    · rcases hm with hm | ⟨rfl, _⟩
      · exact absurd hm (hi m)
      · rfl

theorem remove_inv {s : Sys Q} (h : Inv s) (k n : Nat) : Inv (s.step (.remove k n)) := by
  simp only [Sys.step]
  unfold removeNode
  by_cases hnil : (s.tree k).ids = []
  · simp only [hnil, if_true]
    have : upd s.tree k (s.tree k) = s.tree := by funext l; by_cases hl : l = k <;> simp [upd, hl]
    rw [this]; exact h
  · by_cases hn : n ∈ (s.tree k).ids
    · simp only [hnil, hn, if_false, if_true]
      have hlt := h.idsLt k n hn
      have hmem : ∀ l j, j ∈ (upd s.tree k ((s.tree k).del n) l).ids ↔ j ∈ (s.tree l).ids ∧ ¬ (l = k ∧ j = n) := by
        intro l j
        by_cases hl : l = k
        · subst hl
          simp only [upd_same, true_and, Tree.del]
          rw [(h.idsNodup l).mem_erase_iff]; exact and_comm
        · simp [upd, hl]
      unfold Pool.removeNode
      rw [if_neg (by omega)]
      constructor
      · simp only [List.nodup_cons]; exact ⟨h.disjFree k n hn, h.freeNodup⟩
      · intro j hj
        rcases List.mem_cons.mp hj with rfl | hj
        · exact hlt
        · exact h.freeLt j hj
      · intro l
        by_cases hl : l = k
        · subst hl; simp only [upd_same, Tree.del]; exact (h.idsNodup l).erase _
        · simp only [upd_ne _ _ hl]; exact h.idsNodup l
      · intro l j hj
        exact h.idsLt l j ((hmem l j).mp hj).1
      · intro l j
        have := hmem l j
        by_cases hl : l = k
        · subst hl
          simp only [upd_same, Tree.del] at this ⊢
          by_cases hj : j = n
          · subst hj; simp [upd, (h.idsNodup l).not_mem_erase]
          · rw [upd_ne _ _ hj, h.mapOk l j]
            have h2 : j ∈ (s.tree l).ids.erase n ↔ j ∈ (s.tree l).ids := by
              rw [this]; simp [hj]
            simp only [h2]
        · simp only [upd_ne _ _ hl]; exact h.mapOk l j
      · intro l j hj hr
        obtain ⟨h1, h2⟩ := (hmem l j).mp hj
        rcases List.mem_cons.mp hr with rfl | hr
        · exact h2 ⟨h.disj l k _ h1 hn, rfl⟩
        · exact h.disjFree l j h1 hr
      · intro l m j hj hm
        exact h.disj l m j ((hmem l j).mp hj).1 ((hmem m j).mp hm).1
    · simp only [hnil, hn, if_false]
      have : upd s.tree k (s.tree k) = s.tree := by funext l; by_cases hl : l = k <;> simp [upd, hl]
      rw [this]; exact h

theorem reset_inv {s : Sys Q} (h : Inv s) (k : Nat) : Inv (s.step (.reset k)) := by
  have hmem : ∀ l j, j ∈ (upd s.tree k Tree.empty l).ids ↔ j ∈ (s.tree l).ids ∧ l ≠ k := by
    intro l j
    by_cases hl : l = k
    · subst hl; simp [upd, Tree.empty]
    · simp [upd, hl]
  simp only [Sys.step]
  constructor
  · exact h.freeNodup
  · exact h.freeLt
  · intro l
    by_cases hl : l = k
    · subst hl; simp [upd, Tree.empty]
    · simp only [upd_ne _ _ hl]; exact h.idsNodup l
  · intro l j hj; exact h.idsLt l j ((hmem l j).mp hj).1
  · intro l j
    by_cases hl : l = k
    · subst hl; simp [upd, Tree.empty]
    · simp only [upd_ne _ _ hl]; exact h.mapOk l j
  · intro l j hj; exact h.disjFree l j ((hmem l j).mp hj).1
  · intro l m j hj hm; exact h.disj l m j ((hmem l j).mp hj).1 ((hmem m j).mp hm).1

theorem step_inv {s : Sys Q} (h : Inv s) (op : TOp Q) : Inv (s.step op) := by
  cases op with
  | append k q par =>
    cases hf : s.pool.free with
    | nil => simp only [Sys.step, (append_none k q par).mpr hf]; exact h
    | cons i rest =>
      obtain ⟨p, e, hc, hp, _⟩ := append_spec h k q par hf
      simp only [Sys.step, e]
      exact append_inv h k hf hc hp
  | remove k n => exact remove_inv h k n
  | reset k => exact reset_inv h k
  | resetAll => exact inv_empty _ rfl

theorem run_inv {s : Sys Q} (h : Inv s) (ops : List (TOp Q)) : Inv (s.run ops) := by
  induction ops generalizing s with
  | nil => exact h
  | cons op ops ih => exact ih (step_inv h op)

theorem new_inv (cap : Nat) (q0 : Q) : Inv (Sys.new cap q0) := inv_empty _ rfl

/-! ## Trees built by appending -/

/-- Parents come earlier in the list. -/
def Topo (node : Nat → Node Q) (ids : List Nat) : Prop :=
  ∀ l1 x l2, ids = l1 ++ x :: l2 → (node x).parent < 0 ∨ ∃ y : Nat, y ∈ l1 ∧ (node x).parent = (y : Int)

theorem topo_append {node node' : Nat → Node Q} {ids : List Nat} {i : Nat} (h : Topo node ids)
    (hi : i ∉ ids) (hsame : ∀ j, j ≠ i → node' j = node j)
    (hpar : (node' i).parent < 0 ∨ ∃ y : Nat, y ∈ ids ∧ (node' i).parent = (y : Int)) :
    Topo node' (ids ++ [i]) := by
  intro l1 x l2 e
  rcases List.eq_nil_or_concat l2 with rfl | ⟨l2', b, rfl⟩
  · have := List.append_inj' e rfl
    obtain ⟨rfl, e2⟩ := this
    have : i = x := by simpa using e2
    subst this
    exact hpar
  · have e' : ids ++ [i] = (l1 ++ x :: l2') ++ [b] := by simpa using e
    have := List.append_inj' e' rfl
    obtain ⟨e1, _⟩ := this
    have hx : x ≠ i := by
      intro hxi; apply hi; rw [e1, hxi]; simp
    rw [hsame x hx]
    exact h l1 x l2' e1

theorem topo_congr {node node' : Nat → Node Q} {ids : List Nat} (h : Topo node ids)
    (hsame : ∀ j ∈ ids, node' j = node j) : Topo node' ids := by
  intro l1 x l2 e
  rw [hsame x (by rw [e]; simp)]
  exact h l1 x l2 e

theorem built_topo {s : Sys Q} (h : Built s) : Inv s ∧ ∀ k, Topo s.pool.node (s.tree k).ids := by
  induction h with
  | new cap q0 =>
    refine ⟨new_inv cap q0, ?_⟩
    intro k l1 x l2 e
    simp [Sys.new, Tree.empty] at e
  | @append s k q par _ hpar ih =>
    obtain ⟨hi, ht⟩ := ih
    refine ⟨step_inv hi _, ?_⟩
    cases hf : s.pool.free with
    | nil => simp only [Sys.step, (append_none k q par).mpr hf]; exact ht
    | cons i rest =>
      obtain ⟨p, e, hc, hp, hq, hpp, hsame, hfresh, _⟩ := append_spec hi k q par hf
      simp only [Sys.step, e]
      intro l
      by_cases hl : l = k
      · subst hl
        simp only [upd_same, Tree.add]
        refine topo_append (ht l) (hfresh l) hsame ?_
        rw [hpp]
        rcases hpar with h | h
        · exact Or.inl h
        · exact Or.inr h
      · simp only [upd_ne _ _ hl]
        exact topo_congr (ht l) (fun j hj => hsame j (fun e => hfresh l (e ▸ hj)))
  | @reset s k _ ih =>
    refine ⟨step_inv ih.1 _, ?_⟩
    intro l
    by_cases hl : l = k
    · subst hl; simp only [Sys.step, upd_same]; intro l1 x l2 e; simp [Tree.empty] at e
    · simp only [Sys.step, upd_ne _ _ hl]; exact ih.2 l
  | @resetAll s _ ih =>
    refine ⟨step_inv ih.1 _, ?_⟩
    intro l l1 x l2 e
    simp [Sys.step, Tree.empty] at e

/-! ## The walk -/

theorem walk_terminates {s : Sys Q} (hi : Inv s) (k : Nat) (ht : Topo s.pool.node (s.tree k).ids)
    (start : Nat) (n : Nat) : ∀ x ∈ (s.tree k).ids.take n, ∀ fuel, n < fuel → ∀ acc,
      walk s.pool (s.tree k) start fuel (x : Int) acc ≠ .running := by
  induction n with
  | zero => intro x hx; simp at hx
  | succ n ih =>
    intro x hx fuel hfuel acc
    cases fuel with
    | zero => omega
    | succ fuel =>
      have hxm : x ∈ (s.tree k).ids := List.mem_of_mem_take hx
      unfold walk
      rw [if_neg (by omega)]
      have hg : (s.tree k).getNode (x : Int).toNat = some x := by
        unfold Tree.getNode; rw [hi.mapOk k]; simp [hxm]
      rw [hg]
      simp only [Int.toNat_natCast]
      by_cases hs : x = start
      · simp [hs]
      · rw [if_neg hs]
        -- locate x
        obtain ⟨l1, l2, e⟩ := List.append_of_mem hx
        have e2 : (s.tree k).ids = l1 ++ x :: (l2 ++ (s.tree k).ids.drop (n + 1)) := by
          conv_lhs => rw [← List.take_append_drop (n + 1) (s.tree k).ids, e]
          simp
        rcases ht l1 x _ e2 with hneg | ⟨y, hy, hpar⟩
        · cases fuel with
          | zero => omega
          | succ f => unfold walk; rw [if_pos hneg]; simp
        · rw [hpar]
          refine ih y ?_ fuel (by omega) _
          have hlen : l1.length ≤ n := by
            have := congrArg List.length e
            simp at this; omega
          rw [e2, List.take_append]
          rw [List.mem_append]; left
          rw [List.take_of_length_le hlen]; exact hy

theorem walk_found {s : Sys Q} (hi : Inv s) (k start : Nat) : ∀ fuel (act : Int) acc res,
    walk s.pool (s.tree k) start fuel act acc = .found res →
    ∃ c, res = acc ++ c ∧ 0 ≤ act ∧ c.head? = some act.toNat ∧ c.getLast? = some start ∧
      (∀ i ∈ c, i ∈ (s.tree k).ids) ∧ c.IsChain fun x y => (s.pool.node x).parent = (y : Int) := by
  intro fuel
  induction fuel with
  | zero => intro act acc res h; simp [walk] at h
  | succ fuel ih =>
    intro act acc res h
    unfold walk at h
    by_cases ha : act < 0
    · simp [ha] at h
    · rw [if_neg ha] at h
      cases hg : (s.tree k).getNode act.toNat with
      | none => simp [hg] at h
      | some m =>
        have hm : m = act.toNat ∧ act.toNat ∈ (s.tree k).ids := by
          unfold Tree.getNode at hg; rw [hi.mapOk k] at hg
          split at hg
          · rename_i hin; simp at hg; exact ⟨hg.symm, hin⟩
          · simp at hg
        obtain ⟨rfl, hin⟩ := hm
        simp only [hg] at h
        by_cases hs : act.toNat = start
        · rw [if_pos hs] at h
          simp at h
          refine ⟨[act.toNat], h.symm, by omega, rfl, by simp [hs], ?_, List.isChain_singleton _⟩
          intro i hi; rw [List.mem_singleton] at hi; exact hi ▸ hin
        · rw [if_neg hs] at h
          obtain ⟨c, e, hpos, hh, hl, hmem, hch⟩ := ih _ _ _ h
          cases c with
          | nil => simp at hh
          | cons y c =>
            simp at hh
            refine ⟨act.toNat :: y :: c, by simp [e], by omega, rfl, ?_, ?_, ?_⟩
            · simpa using hl
            · intro i hi
              rcases List.mem_cons.mp hi with rfl | hi
              · exact hin
              · exact hmem i hi
            · rw [List.isChain_cons_cons]
              refine ⟨?_, hch⟩
              rw [hh]; omega

theorem walk_not_notFound {s : Sys Q} (hi : Inv s) (k start : Nat) : ∀ (c : List Nat) (x : Nat)
    fuel acc, c.head? = some x → c.getLast? = some start →
      (∀ i ∈ c, i ∈ (s.tree k).ids) → (c.IsChain fun x y => (s.pool.node x).parent = (y : Int)) →
      walk s.pool (s.tree k) start fuel (x : Int) acc ≠ .notFound := by
  intro c
  induction c with
  | nil => intro x fuel acc hh; simp at hh
  | cons a c ih =>
    intro x fuel acc hh hl hm hc
    have : a = x := by simpa using hh
    subst this
    cases fuel with
    | zero => simp [walk]
    | succ fuel =>
      unfold walk
      rw [if_neg (by omega)]
      have hin := hm a (List.mem_cons_self ..)
      have hg : (s.tree k).getNode (a : Int).toNat = some a := by
        unfold Tree.getNode; rw [hi.mapOk k]; simp [hin]
      rw [hg]
      simp only [Int.toNat_natCast]
      by_cases hs : a = start
      · simp [hs]
      · rw [if_neg hs]
        cases c with
        | nil => exact absurd (by simpa using hl) hs
        | cons y c =>
          rw [List.isChain_cons_cons] at hc
          rw [hc.1]
          exact ih y fuel _ rfl (by simpa using hl) (fun i hi => hm i (List.mem_cons_of_mem _ hi)) hc.2

/-! ## Nearest neighbour -/

theorem nearestLoop_spec {K : Type} [LinearOrder K] (d : Nat → K) (pre : List Nat) (best : Nat)
    (l : List Nat) (hb : best ∈ pre)
    (hmin : ∀ j ∈ pre, d best ≤ d j)
    (hfirst : ∃ p1 p2, pre = p1 ++ best :: p2 ∧ ∀ j ∈ p1, d best < d j) :
    let r := nearestLoop d best (d best) l
    r ∈ pre ++ l ∧ (∀ j ∈ pre ++ l, d r ≤ d j) ∧
      ∃ p1 p2, pre ++ l = p1 ++ r :: p2 ∧ ∀ j ∈ p1, d r < d j := by
  induction l generalizing pre best with
  | nil => simp only [nearestLoop, List.append_nil]; exact ⟨hb, hmin, hfirst⟩
  | cons i l ih =>
    unfold nearestLoop
    by_cases hlt : d i < d best
    · simp only [hlt, if_true]
      have := ih (pre ++ [i]) i (by simp) ?_ ⟨pre, [], rfl, fun j hj => lt_of_lt_of_le hlt (hmin j hj)⟩
      · simpa using this
      · intro j hj
        rcases List.mem_append.mp hj with hj | hj
        · exact le_of_lt (lt_of_lt_of_le hlt (hmin j hj))
        · rw [List.mem_singleton] at hj; subst hj; exact le_refl _
    · simp only [hlt, if_false]
      obtain ⟨p1, p2, e, hp⟩ := hfirst
      have := ih (pre ++ [i]) best (by simp [hb]) ?_ ⟨p1, p2 ++ [i], by simp [e], hp⟩
      · simpa using this
      · intro j hj
        rcases List.mem_append.mp hj with hj | hj
        · exact hmin j hj
        · rw [List.mem_singleton] at hj; subst hj; exact not_lt.mp hlt

end Simox.Planning
