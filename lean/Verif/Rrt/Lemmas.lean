import Verif.Rrt.Spec
import Verif.Planning.Lemmas

set_option linter.unusedSectionVars false

namespace Simox.Rrt

open Simox.Planning Spec

variable {Q K : Type}

/-! ## Lists -/

theorem consecutive_cons {l : List Q} {u v a : Q} (h : Consecutive l u v) : Consecutive (a :: l) u v := by
  obtain ⟨l1, l2, rfl⟩ := h
  exact ⟨a :: l1, l2, rfl⟩

theorem isChain_consecutive (l : List Q) : l.IsChain (Consecutive l) := by
  induction l with
  | nil => exact List.isChain_nil
  | cons a l ih =>
    cases l with
    | nil => exact List.isChain_singleton _
    | cons b l =>
      rw [List.isChain_cons_cons]
      exact ⟨⟨[], l, rfl⟩, ih.imp fun _ _ h => consecutive_cons h⟩

/-! ## Trees all of whose edges satisfy a relation -/

/-- Tree `k` has root `r` and every other node hangs below an earlier one by an edge satisfying `E`. -/
structure Grown (E : Q → Q → Prop) (s : Sys Q) (k r : Nat) : Prop where
  mem : r ∈ (s.tree k).ids
  root : (s.pool.node r).parent < 0
  par : ∀ l1 x l2, (s.tree k).ids = l1 ++ x :: l2 → x = r ∨
    ∃ y : Nat, y ∈ l1 ∧ (s.pool.node x).parent = (y : Int) ∧
      E (s.pool.node y).config (s.pool.node x).config

/-- `s'` results from appending nodes to tree `k` of `s`. -/
structure Frame (k : Nat) (s s' : Sys Q) : Prop where
  other : ∀ l, l ≠ k → s'.tree l = s.tree l
  same : ∀ l, ∀ j ∈ (s.tree l).ids, s'.pool.node j = s.pool.node j
  pre : ∃ new, (s'.tree k).ids = (s.tree k).ids ++ new
  cap : s'.pool.cap = s.pool.cap

theorem Frame.refl (k : Nat) (s : Sys Q) : Frame k s s :=
  ⟨fun _ _ => rfl, fun _ _ _ => rfl, ⟨[], by simp⟩, rfl⟩

theorem Frame.sub {k : Nat} {s s' : Sys Q} (h : Frame k s s') (l : Nat) {j : Nat}
    (hj : j ∈ (s.tree l).ids) : j ∈ (s'.tree l).ids := by
  by_cases hl : l = k
  · subst hl
    obtain ⟨new, e⟩ := h.pre
    rw [e]; exact List.mem_append_left _ hj
  · rw [h.other l hl]; exact hj

theorem Frame.trans {k : Nat} {s s' s'' : Sys Q} (h1 : Frame k s s') (h2 : Frame k s' s'') :
    Frame k s s'' := by
  refine ⟨fun l hl => (h2.other l hl).trans (h1.other l hl), ?_, ?_, h2.cap.trans h1.cap⟩
  · intro l j hj
    rw [h2.same l j (h1.sub l hj), h1.same l j hj]
  · obtain ⟨n1, e1⟩ := h1.pre
    obtain ⟨n2, e2⟩ := h2.pre
    exact ⟨n1 ++ n2, by rw [e2, e1, List.append_assoc]⟩

theorem Frame.grown {E : Q → Q → Prop} {k l r : Nat} {s s' : Sys Q} (h : Frame k s s') (hl : l ≠ k)
    (hg : Grown E s l r) : Grown E s' l r := by
  have ht := h.other l hl
  refine ⟨by rw [ht]; exact hg.mem, by rw [h.same l r hg.mem]; exact hg.root, ?_⟩
  intro l1 x l2 e
  rw [ht] at e
  have hm : ∀ j ∈ l1 ++ x :: l2, s'.pool.node j = s.pool.node j := by
    intro j hj; exact h.same l j (by rw [e]; exact hj)
  rcases hg.par l1 x l2 e with rfl | ⟨y, hy, hp, hE⟩
  · exact Or.inl rfl
  · refine Or.inr ⟨y, hy, ?_, ?_⟩
    · rw [hm x (by simp)]; exact hp
    · rw [hm x (by simp), hm y (by simp [hy])]; exact hE

/-! ## Appending -/

theorem push_none {s : Sys Q} {k : Nat} {q : Q} {par : Int} :
    push s k q par = none ↔ s.pool.free = [] := by
  unfold push
  rw [← append_none k q par]
  cases appendNode s.pool (s.tree k) q par <;> simp

theorem push_spec {s s' : Sys Q} (h : Inv s) {k i : Nat} {q : Q} {par : Int}
    (e : push s k q par = some (i, s')) :
    Inv s' ∧ Frame k s s' ∧ (s'.tree k).ids = (s.tree k).ids ++ [i] ∧
      (s'.pool.node i).config = q ∧ (s'.pool.node i).parent = par ∧ ∀ l, i ∉ (s.tree l).ids := by
  cases hf : s.pool.free with
  | nil => rw [push_none.mpr hf] at e; simp at e
  | cons a rest =>
    obtain ⟨p, e1, hc, hp, hq, hpar, hsame, hfresh, hlt⟩ := append_spec h k q par hf
    unfold push at e
    rw [e1] at e
    simp only [Option.some.injEq, Prod.mk.injEq] at e
    obtain ⟨rfl, rfl⟩ := e
    refine ⟨append_inv h k hf hc hp, ⟨?_, ?_, ⟨[a], ?_⟩, hc⟩, ?_, hq, hpar, hfresh⟩
    · intro l hl; exact upd_ne _ _ hl
    · intro l j hj; exact hsame j (fun e => hfresh l (e ▸ hj))
    · simp [upd, Tree.add]
    · simp [upd, Tree.add]

theorem grown_push {E : Q → Q → Prop} {s s' : Sys Q} (h : Inv s) {k r i n : Nat} {q : Q}
    (hg : Grown E s k r) (hn : n ∈ (s.tree k).ids) (hE : E (s.pool.node n).config q)
    (e : push s k q n = some (i, s')) : Grown E s' k r := by
  obtain ⟨hi', hfr, hids, hq, hpar, hfresh⟩ := push_spec h e
  refine ⟨hfr.sub k hg.mem, by rw [hfr.same k r hg.mem]; exact hg.root, ?_⟩
  intro l1 x l2 e2
  rw [hids] at e2
  rcases List.eq_nil_or_concat l2 with rfl | ⟨l2', b, rfl⟩
  · obtain ⟨rfl, e3⟩ := List.append_inj' e2 rfl
    have : i = x := by simpa using e3
    subst this
    exact Or.inr ⟨n, hn, hpar, by rw [hfr.same k n hn, hq]; exact hE⟩
  · have e' : (s.tree k).ids ++ [i] = (l1 ++ x :: l2') ++ [b] := by simpa using e2
    obtain ⟨e1, _⟩ := List.append_inj' e' rfl
    have hm : ∀ j ∈ l1 ++ x :: l2', s'.pool.node j = s.pool.node j := by
      intro j hj; exact hfr.same k j (by rw [e1]; exact hj)
    rcases hg.par l1 x l2' e1 with rfl | ⟨y, hy, hp, hE'⟩
    · exact Or.inl rfl
    · refine Or.inr ⟨y, hy, ?_, ?_⟩
      · rw [hm x (by simp)]; exact hp
      · rw [hm x (by simp), hm y (by simp [hy])]; exact hE'

theorem grown_root {E : Q → Q → Prop} {s s' : Sys Q} (h : Inv s) {k i : Nat} {q : Q}
    (h0 : (s.tree k).ids = []) (e : push s k q (-1) = some (i, s')) :
    Grown E s' k i ∧ (s'.tree k).ids = [i] := by
  obtain ⟨hi', hfr, hids, hq, hpar, hfresh⟩ := push_spec h e
  rw [h0, List.nil_append] at hids
  refine ⟨⟨by rw [hids]; simp, by rw [hpar]; omega, ?_⟩, hids⟩
  intro l1 x l2 e2
  rw [hids] at e2
  cases l1 with
  | nil => left; simp at e2; exact e2.1.symm
  | cons a l1 => simp at e2

theorem appendList_spec {E : Q → Q → Prop} {k r : Nat} : ∀ (qs : List Q) (s : Sys Q) (n : Nat), Inv s →
    Grown E s k r → n ∈ (s.tree k).ids → ((s.pool.node n).config :: qs).IsChain E →
    Inv (appendList s k n qs).1 ∧ Grown E (appendList s k n qs).1 k r ∧
      Frame k s (appendList s k n qs).1 ∧
      ∀ i, (appendList s k n qs).2 = some i →
        i ∈ ((appendList s k n qs).1.tree k).ids ∧
        ((s.pool.node n).config :: qs).getLast? = some ((appendList s k n qs).1.pool.node i).config ∧
        (qs ≠ [] → ∀ l, i ∉ (s.tree l).ids) := by
  intro qs
  induction qs with
  | nil =>
    intro s n hi hg hn _
    refine ⟨hi, hg, Frame.refl k s, ?_⟩
    intro i e
    simp only [appendList, Option.some.injEq] at e
    subst e
    exact ⟨hn, rfl, fun h => absurd rfl h⟩
  | cons q qs ih =>
    intro s n hi hg hn hch
    rw [List.isChain_cons_cons] at hch
    unfold appendList
    cases e : push s k q n with
    | none => exact ⟨hi, hg, Frame.refl k s, fun i h => by simp at h⟩
    | some x =>
      obtain ⟨a, s'⟩ := x
      obtain ⟨hi', hfr, hids, hq, hpar, hfresh⟩ := push_spec hi e
      have hg' := grown_push hi hg hn hch.1 e
      have ha : a ∈ (s'.tree k).ids := by rw [hids]; simp
      obtain ⟨r1, r2, r3, r4⟩ := ih s' a hi' hg' ha (by rw [hq]; exact hch.2)
      refine ⟨r1, r2, hfr.trans r3, ?_⟩
      intro i ei
      obtain ⟨w1, w2, w3⟩ := r4 i ei
      refine ⟨w1, ?_, ?_⟩
      · rw [hq] at w2; simpa using w2
      · intro _ l hl
        cases qs with
        | nil =>
          simp only [appendList, Option.some.injEq] at ei
          subst ei; exact hfresh l hl
        | cons b bs => exact w3 (by simp) l (hfr.sub l hl)

section
variable [LT K] [DecidableRel (α := K) (· < ·)]

theorem nearestLoop_mem (d : Nat → K) : ∀ (l : List Nat) (best : Nat) (x : K),
    nearestLoop d best x l ∈ best :: l := by
  intro l
  induction l with
  | nil => intro b x; simp [nearestLoop]
  | cons i l ih =>
    intro b x
    unfold nearestLoop
    split
    · exact List.mem_cons_of_mem _ (ih i _)
    · rcases List.mem_cons.mp (ih b x) with h | h
      · rw [h]; exact List.mem_cons_self ..
      · exact List.mem_cons_of_mem _ (List.mem_cons_of_mem _ h)

theorem nearest_mem {s : Sys Q} (h : Inv s) {k : Nat} {d2 : Q → Q → K} {c : Q} {nn : Nat}
    (e : nearestNeighbor s.pool (s.tree k) d2 c = some nn) : nn ∈ (s.tree k).ids := by
  unfold nearestNeighbor Tree.getNode at e
  rw [h.mapOk k] at e
  split at e
  · rename_i hin; simp at e; exact e ▸ hin
  · simp at e

theorem nearest_some {s : Sys Q} (h : Inv s) {k : Nat} (d2 : Q → Q → K) (c : Q)
    (hne : (s.tree k).ids ≠ []) : ∃ nn, nearestNeighbor s.pool (s.tree k) d2 c = some nn := by
  unfold nearestNeighbor Tree.getNode
  rw [h.mapOk k]
  have : nearestNeighborID s.pool (s.tree k) d2 c ∈ (s.tree k).ids := by
    unfold nearestNeighborID
    cases hids : (s.tree k).ids with
    | nil => exact absurd hids hne
    | cons i is => exact nearestLoop_mem _ is i _
  rw [if_pos this]
  exact ⟨_, rfl⟩

theorem nearest_empty {s : Sys Q} (h : Inv s) {k : Nat} (d2 : Q → Q → K) (c : Q)
    (he : (s.tree k).ids = []) : nearestNeighbor s.pool (s.tree k) d2 c = none := by
  unfold nearestNeighbor Tree.getNode
  rw [h.mapOk k, he]; simp

/-! ## Extending a tree -/

/-- What every extension does. -/
structure GrowSpec (env : Env Q K) (Near : Q → Q → Prop) (s : Sys Q) (k r : Nat) (c : Q)
    (res : Sys Q × Int × Ext) : Prop where
  inv : Inv res.1
  grown : Grown (Checked env) res.1 k r
  frame : Frame k s res.1
  added : res.2.2 = .success ∨ res.2.2 = .part → ∃ i : Nat, res.2.1 = (i : Int) ∧
    i ∈ (res.1.tree k).ids ∧ (∀ l, i ∉ (s.tree l).ids) ∧
    (res.2.2 = .success → Near (res.1.pool.node i).config c)
  defined : res.2.2 ≠ .undef

variable {env : Env Q K} {Near : Q → Q → Prop}

theorem GrowSpec.skip {s : Sys Q} {k r : Nat} {c : Q} {last : Int} {x : Ext} (hi : Inv s)
    (hg : Grown (Checked env) s k r) (h1 : x ≠ .success) (h2 : x ≠ .part) (h3 : x ≠ .undef) :
    GrowSpec env Near s k r c (s, last, x) :=
  ⟨hi, hg, Frame.refl k s, fun h => (h.elim h1 h2).elim, h3⟩

theorem appendLocal_spec {s : Sys Q} {k r nn : Nat} {last : Int} {c : Q} {l : List Q} {x : Ext}
    (hi : Inv s) (hg : Grown (Checked env) s k r) (hn : nn ∈ (s.tree k).ids)
    (hh : l.head? = some (s.pool.node nn).config) (hc : l.IsChain (Checked env))
    (hx : x = .success ∨ x = .part)
    (hl : x = .success → ∀ e, 1 < l.length → l.getLast? = some e → Near e c) :
    GrowSpec env Near s k r c (appendLocal s k nn last l x) := by
  unfold appendLocal
  match l, hh, hc, hl with
  | [], _, _, _ => exact GrowSpec.skip hi hg (by simp) (by simp) (by simp)
  | [_], _, _, _ => exact GrowSpec.skip hi hg (by simp) (by simp) (by simp)
  | a :: q :: qs, hh, hc, hl =>
    have ha : a = (s.pool.node nn).config := by simpa using hh
    subst ha
    obtain ⟨r1, r2, r3, r4⟩ := appendList_spec (q :: qs) s nn hi hg hn hc
    dsimp only
    cases e : appendList s k nn (q :: qs) with
    | mk s' o =>
      rw [e] at r1 r2 r3 r4
      cases o with
      | none => exact ⟨r1, r2, r3, fun h => by simp at h, by simp⟩
      | some i =>
        obtain ⟨w1, w2, w3⟩ := r4 i rfl
        refine ⟨r1, r2, r3, fun _ => ⟨i, rfl, w1, w3 (by simp), fun hs => ?_⟩, ?_⟩
        · exact hl hs _ (by simp) w2
        · rcases hx with rfl | rfl <;> simp

theorem checked_path {a b : Q} (h : env.pathValid a b = true) :
    (env.path a b).IsChain (Checked env) :=
  (isChain_consecutive _).imp fun _ _ hc => Or.inl ⟨a, b, h, hc⟩

theorem checked_until (a b : Q) : (env.pathUntil a b).1.IsChain (Checked env) :=
  (isChain_consecutive _).imp fun _ _ hc => Or.inr ⟨a, b, hc⟩

theorem grow_spec (ok : EnvOK env Near) (mode : Mode) (cut : Bool) {s : Sys Q} {k r : Nat}
    (last : Int) (c : Q) (hi : Inv s) (hg : Grown (Checked env) s k r) :
    GrowSpec env Near s k r c (grow env mode cut s k last c) := by
  obtain ⟨nn, hnn⟩ := nearest_some hi env.d2 c (List.ne_nil_of_mem hg.mem)
  have hn := nearest_mem hi hnn
  cases mode with
  | extend =>
    simp only [grow, extend, hnn]
    by_cases hfar : env.far (s.pool.node nn).config c = true
    · simp only [hfar, if_true]
      split
      · rename_i hv
        simp only [Bool.and_eq_true] at hv
        exact appendLocal_spec hi hg hn (ok.pathHead _ _) (checked_path hv.2) (Or.inr rfl)
          (fun h => by simp at h)
      · exact GrowSpec.skip hi hg (by simp) (by simp) (by simp)
    · simp only [hfar, if_false, Bool.false_eq_true]
      split
      · rename_i hv
        simp only [Bool.and_eq_true] at hv
        exact appendLocal_spec hi hg hn (ok.pathHead _ _) (checked_path hv.2) (Or.inl rfl)
          (fun _ e h1 h2 => ok.pathLast _ _ e h1 h2)
      · exact GrowSpec.skip hi hg (by simp) (by simp) (by simp)
  | connectComplete =>
    simp only [grow, connectComplete, hnn]
    split
    · rename_i hv
      simp only [Bool.and_eq_true] at hv
      exact appendLocal_spec hi hg hn (ok.pathHead _ _) (checked_path hv.2) (Or.inl rfl)
        (fun _ e h1 h2 => ok.pathLast _ _ e h1 h2)
    · exact GrowSpec.skip hi hg (by simp) (by simp) (by simp)
  | connect =>
    simp only [grow, connectUntil, hnn]
    have hh := ok.untilHead (s.pool.node nn).config c
    have hc := checked_until (env := env) (s.pool.node nn).config c
    have hl := ok.untilLast (s.pool.node nn).config c
    revert hh hc hl
    generalize env.pathUntil (s.pool.node nn).config c = pu
    obtain ⟨l, fl⟩ := pu
    intro hh hc hl
    match l, hh, hc, hl with
    | [], _, _, _ => exact GrowSpec.skip hi hg (by simp) (by simp) (by simp)
    | [_], _, _, _ => exact GrowSpec.skip hi hg (by simp) (by simp) (by simp)
    | a :: q :: qs, hh, hc, hl =>
      have ha : a = (s.pool.node nn).config := by simpa using hh
      subst ha
      obtain ⟨r1, r2, r3, r4⟩ := appendList_spec (q :: qs) s nn hi hg hn hc
      dsimp only
      cases e : appendList s k nn (q :: qs) with
      | mk s' o =>
        rw [e] at r1 r2 r3 r4
        cases o with
        | none => exact ⟨r1, r2, r3, fun h => by simp at h, by simp⟩
        | some i =>
          obtain ⟨w1, w2, w3⟩ := r4 i rfl
          refine ⟨r1, r2, r3, fun _ => ⟨i, rfl, w1, w3 (by simp), fun hs => ?_⟩, ?_⟩
          · dsimp only at hs
            have hfl : fl = true := by
              by_cases hf : fl = true
              · exact hf
              · rw [if_neg hf] at hs; split at hs <;> simp at hs
            exact hl _ hfl (by simp) w2
          · dsimp only; split
            · simp
            · split <;> simp

end

/-! ## Ancestors -/

/-- From every node of a grown tree the parents lead to the root. -/
theorem ancestors {E : Q → Q → Prop} {s : Sys Q} {k r : Nat} (hg : Grown E s k r) (n : Nat) :
    ∀ x ∈ (s.tree k).ids.take n, ∃ c : List Nat, c.length < n ∧ (x :: c).getLast? = some r ∧
      (∀ i ∈ c, i ∈ (s.tree k).ids) ∧
      (x :: c).IsChain fun a b => (s.pool.node a).parent = (b : Int) ∧
        E (s.pool.node b).config (s.pool.node a).config := by
  induction n with
  | zero => intro x hx; simp at hx
  | succ n ih =>
    intro x hx
    obtain ⟨l1, l2, e⟩ := List.append_of_mem hx
    have e2 : (s.tree k).ids = l1 ++ x :: (l2 ++ (s.tree k).ids.drop (n + 1)) := by
      conv_lhs => rw [← List.take_append_drop (n + 1) (s.tree k).ids, e]
      simp
    rcases hg.par l1 x _ e2 with rfl | ⟨y, hy, hp, hE⟩
    · exact ⟨[], by simp, rfl, by simp, List.isChain_singleton _⟩
    · have hlen : l1.length ≤ n := by
        have := congrArg List.length e
        simp at this; omega
      have hyt : y ∈ (s.tree k).ids.take n := by
        rw [e2, List.take_append, List.mem_append]; left
        rw [List.take_of_length_le hlen]; exact hy
      obtain ⟨c, h1, h2, h3, h4⟩ := ih y hyt
      refine ⟨y :: c, by simp; omega, by simpa using h2, ?_, ?_⟩
      · intro i hi
        rcases List.mem_cons.mp hi with rfl | hi
        · exact List.mem_of_mem_take hyt
        · exact h3 i hi
      · rw [List.isChain_cons_cons]; exact ⟨⟨hp, hE⟩, h4⟩

theorem ancestors' {E : Q → Q → Prop} {s : Sys Q} {k r : Nat} (hg : Grown E s k r) {x : Nat}
    (hx : x ∈ (s.tree k).ids) : ∃ c : List Nat, c.length < (s.tree k).nrOfNodes ∧
      (x :: c).getLast? = some r ∧ (∀ i ∈ c, i ∈ (s.tree k).ids) ∧
      (x :: c).IsChain fun a b => (s.pool.node a).parent = (b : Int) ∧
        E (s.pool.node b).config (s.pool.node a).config :=
  ancestors hg (s.tree k).ids.length x (by rw [List.take_length]; exact hx)

theorem getNode_mem {s : Sys Q} (h : Inv s) {k i : Nat} (hi : i ∈ (s.tree k).ids) :
    (s.tree k).getNode i = some i := by
  unfold Tree.getNode; rw [h.mapOk k]; simp [hi]

theorem getNodeInt_mem {s : Sys Q} (h : Inv s) {k i : Nat} (hi : i ∈ (s.tree k).ids) :
    (s.tree k).getNodeInt (i : Int) = some i := by
  unfold Tree.getNodeInt
  rw [if_neg (by omega), Int.toNat_natCast]; exact getNode_mem h hi

theorem solLoop_line {s : Sys Q} (h : Inv s) {r : Nat} (hroot : (s.pool.node r).parent < 0) :
    ∀ (c : List Nat) (x fuel : Nat) (acc : List Nat), c.length ≤ fuel → x ≠ r →
      (x :: c).getLast? = some r → (∀ i ∈ c, i ∈ (s.tree 0).ids) →
      ((x :: c).IsChain fun a b => (s.pool.node a).parent = (b : Int)) →
      solLoop s r fuel x acc = .found (acc ++ c) := by
  intro c
  induction c with
  | nil => intro x fuel acc _ hx hl; simp at hl; exact absurd hl hx
  | cons y c ih =>
    intro x fuel acc hf hx hl hm hc
    rw [List.isChain_cons_cons] at hc
    cases fuel with
    | zero => simp at hf
    | succ fuel =>
      unfold solLoop
      have hg := getNode_mem h (hm y (List.mem_cons_self ..))
      simp only [hc.1, Int.toNat_natCast]
      rw [if_neg (by omega), hg]
      dsimp only
      by_cases hy : y = r
      · rw [if_pos hy]
        cases c with
        | nil => rfl
        | cons z c =>
          exfalso
          have := hc.2
          rw [List.isChain_cons_cons, hy] at this
          omega
      · rw [if_neg hy, ih y fuel _ (by simp at hf; omega) hy (by simpa using hl)
          (fun i hi => hm i (List.mem_cons_of_mem _ hi)) hc.2]
        simp

theorem biWalk_line {s : Sys Q} (h : Inv s) {k r : Nat} (hroot : (s.pool.node r).parent < 0) :
    ∀ (c : List Nat) (x fuel : Nat) (acc : List Nat), c.length < fuel →
      (x :: c).getLast? = some r → (∀ i ∈ c, i ∈ (s.tree k).ids) →
      ((x :: c).IsChain fun a b => (s.pool.node a).parent = (b : Int)) →
      biWalk s k fuel (s.pool.node x).parent acc = some (.found (acc ++ c)) := by
  intro c
  induction c with
  | nil =>
    intro x fuel acc hf hl _ _
    simp at hl
    subst hl
    cases fuel with
    | zero => simp at hf
    | succ fuel => unfold biWalk; rw [if_pos hroot]; simp
  | cons y c ih =>
    intro x fuel acc hf hl hm hc
    rw [List.isChain_cons_cons] at hc
    cases fuel with
    | zero => simp at hf
    | succ fuel =>
      unfold biWalk
      have hg := getNode_mem h (hm y (List.mem_cons_self ..))
      rw [hc.1, Int.toNat_natCast, if_neg (by omega), hg]
      dsimp only
      rw [ih y fuel _ (by simp at hf; omega) (by simpa using hl)
          (fun i hi => hm i (List.mem_cons_of_mem _ hi)) hc.2]
      simp

end Simox.Rrt
