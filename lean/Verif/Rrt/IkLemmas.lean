import Verif.Rrt.IkSpec
import Verif.Rrt.Lemmas3

set_option linter.unusedSectionVars false

namespace Simox.Rrt

open Simox.Planning Spec

variable {Q K : Type}

/-! ## Forests -/

/-- Every node of tree `k` is a root with a configuration in `R`, or hangs below an earlier node by an
edge satisfying `E`. -/
def Forest (E : Q → Q → Prop) (R : Q → Prop) (s : Sys Q) (k : Nat) : Prop :=
  ∀ l1 x l2, (s.tree k).ids = l1 ++ x :: l2 →
    ((s.pool.node x).parent < 0 ∧ R (s.pool.node x).config) ∨
    ∃ y : Nat, y ∈ l1 ∧ (s.pool.node x).parent = (y : Int) ∧
      E (s.pool.node y).config (s.pool.node x).config

theorem forest_empty {E : Q → Q → Prop} {R : Q → Prop} {s : Sys Q} {k : Nat}
    (h : (s.tree k).ids = []) : Forest E R s k := by
  intro l1 x l2 e
  rw [h] at e
  simp at e

theorem forest_mono {E : Q → Q → Prop} {R R' : Q → Prop} {s : Sys Q} {k : Nat} (h : Forest E R s k)
    (hR : ∀ q, R q → R' q) : Forest E R' s k := by
  intro l1 x l2 e
  rcases h l1 x l2 e with ⟨h1, h2⟩ | h
  · exact Or.inl ⟨h1, hR _ h2⟩
  · exact Or.inr h

theorem forest_congr {E : Q → Q → Prop} {R : Q → Prop} {s s' : Sys Q} {k : Nat}
    (ht : s'.tree k = s.tree k) (hn : ∀ j ∈ (s.tree k).ids, s'.pool.node j = s.pool.node j)
    (h : Forest E R s k) : Forest E R s' k := by
  intro l1 x l2 e
  rw [ht] at e
  have hm : ∀ j ∈ l1 ++ x :: l2, s'.pool.node j = s.pool.node j := by
    intro j hj; exact hn j (by rw [e]; exact hj)
  rw [hm x (by simp)]
  rcases h l1 x l2 e with h | ⟨y, hy, hp, hE⟩
  · exact Or.inl h
  · exact Or.inr ⟨y, hy, hp, by rw [hm y (by simp [hy])]; exact hE⟩

theorem forest_frame {E : Q → Q → Prop} {R : Q → Prop} {s s' : Sys Q} {k l : Nat} (hf : Frame k s s')
    (hl : l ≠ k) (h : Forest E R s l) : Forest E R s' l :=
  forest_congr (hf.other l hl) (hf.same l) h

theorem forest_push {E : Q → Q → Prop} {R : Q → Prop} {s s' : Sys Q} (h : Inv s) {k i : Nat} {q : Q}
    {par : Int} (hg : Forest E R s k)
    (hpar' : (par < 0 ∧ R q) ∨ ∃ n : Nat, n ∈ (s.tree k).ids ∧ par = (n : Int) ∧
      E (s.pool.node n).config q)
    (e : push s k q par = some (i, s')) : Forest E R s' k := by
  obtain ⟨hi', hfr, hids, hq, hpar, hfresh⟩ := push_spec h e
  intro l1 x l2 e2
  rw [hids] at e2
  rcases List.eq_nil_or_concat l2 with rfl | ⟨l2', b, rfl⟩
  · obtain ⟨rfl, e3⟩ := List.append_inj' e2 rfl
    have : i = x := by simpa using e3
    subst this
    rcases hpar' with ⟨h1, h2⟩ | ⟨n, hn, h1, h2⟩
    · exact Or.inl ⟨by rw [hpar]; exact h1, by rw [hq]; exact h2⟩
    · exact Or.inr ⟨n, hn, by rw [hpar]; exact h1, by rw [hfr.same k n hn, hq]; exact h2⟩
  · have e' : (s.tree k).ids ++ [i] = (l1 ++ x :: l2') ++ [b] := by simpa using e2
    obtain ⟨e1, _⟩ := List.append_inj' e' rfl
    have hm : ∀ j ∈ l1 ++ x :: l2', s'.pool.node j = s.pool.node j := by
      intro j hj; exact hfr.same k j (by rw [e1]; exact hj)
    rw [hm x (by simp)]
    rcases hg l1 x l2' e1 with h | ⟨y, hy, hp, hE'⟩
    · exact Or.inl h
    · exact Or.inr ⟨y, hy, hp, by rw [hm y (by simp [hy])]; exact hE'⟩

theorem appendList_forest {E : Q → Q → Prop} {R : Q → Prop} {k : Nat} : ∀ (qs : List Q) (s : Sys Q)
    (n : Nat), Inv s → Forest E R s k → n ∈ (s.tree k).ids →
    ((s.pool.node n).config :: qs).IsChain E →
    Inv (appendList s k n qs).1 ∧ Forest E R (appendList s k n qs).1 k ∧
      Frame k s (appendList s k n qs).1 ∧
      ∀ i, (appendList s k n qs).2 = some i →
        i ∈ ((appendList s k n qs).1.tree k).ids ∧
        ((s.pool.node n).config :: qs).getLast? = some ((appendList s k n qs).1.pool.node i).config := by
  intro qs
  induction qs with
  | nil =>
    intro s n hi hg hn _
    refine ⟨hi, hg, Frame.refl k s, ?_⟩
    intro i e
    simp only [appendList, Option.some.injEq] at e
    subst e
    exact ⟨hn, rfl⟩
  | cons q qs ih =>
    intro s n hi hg hn hch
    rw [List.isChain_cons_cons] at hch
    unfold appendList
    cases e : push s k q n with
    | none => exact ⟨hi, hg, Frame.refl k s, fun i h => by simp at h⟩
    | some x =>
      obtain ⟨a, s'⟩ := x
      obtain ⟨hi', hfr, hids, hq, hpar, hfresh⟩ := push_spec hi e
      have hg' := forest_push hi hg (Or.inr ⟨n, hn, rfl, hch.1⟩) e
      have ha : a ∈ (s'.tree k).ids := by rw [hids]; simp
      obtain ⟨r1, r2, r3, r4⟩ := ih s' a hi' hg' ha (by rw [hq]; exact hch.2)
      refine ⟨r1, r2, hfr.trans r3, ?_⟩
      intro i ei
      obtain ⟨w1, w2⟩ := r4 i ei
      exact ⟨w1, by rw [hq] at w2; simpa using w2⟩

theorem ancestors_forest {E : Q → Q → Prop} {R : Q → Prop} {s : Sys Q} {k : Nat} (hg : Forest E R s k)
    (n : Nat) : ∀ x ∈ (s.tree k).ids.take n, ∃ (c : List Nat) (r : Nat), c.length < n ∧
      (x :: c).getLast? = some r ∧ (s.pool.node r).parent < 0 ∧ R (s.pool.node r).config ∧
      (∀ i ∈ c, i ∈ (s.tree k).ids) ∧
      (x :: c).IsChain fun a b => (s.pool.node a).parent = (b : Int) ∧
        E (s.pool.node b).config (s.pool.node a).config := by
  induction n with
  | zero => intro x hx; simp at hx
  | succ n ih =>
    intro x hx
    obtain ⟨l1, l2, e⟩ := List.append_of_mem hx
    have e2 : (s.tree k).ids = l1 ++ x :: (l2 ++ (s.tree k).ids.drop (n + 1)) := by
      conv_lhs => rw [← List.take_append_drop (n + 1) (s.tree k).ids, e]
      simp
    rcases hg l1 x _ e2 with ⟨h1, h2⟩ | ⟨y, hy, hp, hE⟩
    · exact ⟨[], x, by simp, rfl, h1, h2, by simp, List.isChain_singleton _⟩
    · have hlen : l1.length ≤ n := by
        have := congrArg List.length e
        simp at this; omega
      have hyt : y ∈ (s.tree k).ids.take n := by
        rw [e2, List.take_append, List.mem_append]; left
        rw [List.take_of_length_le hlen]; exact hy
      obtain ⟨c, r, h1, h2, h3, h4, h5, h6⟩ := ih y hyt
      refine ⟨y :: c, r, by simp; omega, by simpa using h2, h3, h4, ?_, ?_⟩
      · intro i hi
        rcases List.mem_cons.mp hi with rfl | hi
        · exact List.mem_of_mem_take hyt
        · exact h5 i hi
      · rw [List.isChain_cons_cons]; exact ⟨⟨hp, hE⟩, h6⟩

theorem ancestors_forest' {E : Q → Q → Prop} {R : Q → Prop} {s : Sys Q} {k : Nat}
    (hg : Forest E R s k) {x : Nat} (hx : x ∈ (s.tree k).ids) : ∃ (c : List Nat) (r : Nat),
      c.length < (s.tree k).nrOfNodes ∧
      (x :: c).getLast? = some r ∧ (s.pool.node r).parent < 0 ∧ R (s.pool.node r).config ∧
      (∀ i ∈ c, i ∈ (s.tree k).ids) ∧
      (x :: c).IsChain fun a b => (s.pool.node a).parent = (b : Int) ∧
        E (s.pool.node b).config (s.pool.node a).config :=
  ancestors_forest hg (s.tree k).ids.length x (by rw [List.take_length]; exact hx)

/-! ## Extensions -/

variable [LT K] [DecidableRel (α := K) (· < ·)] {env : Env Q K} {Near : Q → Q → Prop}

structure GrowF (env : Env Q K) (Near : Q → Q → Prop) (R : Q → Prop) (s : Sys Q) (k : Nat) (c : Q)
    (res : Sys Q × Int × Ext) : Prop where
  inv : Inv res.1
  forest : Forest (Checked env) R res.1 k
  frame : Frame k s res.1
  added : res.2.2 = .success ∨ res.2.2 = .part → ∃ i : Nat, res.2.1 = (i : Int) ∧
    i ∈ (res.1.tree k).ids ∧ (res.2.2 = .success → Near (res.1.pool.node i).config c)

theorem GrowF.skip {R : Q → Prop} {s : Sys Q} {k : Nat} {c : Q} {last : Int} {x : Ext} (hi : Inv s)
    (hg : Forest (Checked env) R s k) (h1 : x ≠ .success) (h2 : x ≠ .part) :
    GrowF env Near R s k c (s, last, x) :=
  ⟨hi, hg, Frame.refl k s, fun h => (h.elim h1 h2).elim⟩

theorem connectComplete_forest (ok : EnvOK env Near) (cut : Bool) {R : Q → Prop} {s : Sys Q} {k : Nat}
    (last : Int) (c : Q) (hi : Inv s) (hg : Forest (Checked env) R s k) :
    GrowF env Near R s k c (connectComplete env cut s k last c) := by
  unfold connectComplete
  cases hnn : nearestNeighbor s.pool (s.tree k) env.d2 c with
  | none => exact GrowF.skip hi hg (by simp) (by simp)
  | some nn =>
    have hn := nearest_mem hi hnn
    dsimp only
    by_cases hv : (!cut && env.pathValid (s.pool.node nn).config c) = true
    swap
    · rw [if_neg hv]; exact GrowF.skip hi hg (by simp) (by simp)
    rw [if_pos hv]
    simp only [Bool.and_eq_true] at hv
    have hh := ok.pathHead (s.pool.node nn).config c
    have hc := checked_path hv.2
    have hl := ok.pathLast (s.pool.node nn).config c
    unfold appendLocal
    revert hh hc hl
    generalize env.path (s.pool.node nn).config c = l
    intro hh hc hl
    match l, hh, hc, hl with
    | [], _, _, _ => exact GrowF.skip hi hg (by simp) (by simp)
    | [_], _, _, _ => exact GrowF.skip hi hg (by simp) (by simp)
    | a :: q :: qs, hh, hc, hl =>
      have ha : a = (s.pool.node nn).config := by simpa using hh
      subst ha
      obtain ⟨r1, r2, r3, r4⟩ := appendList_forest (q :: qs) s nn hi hg hn hc
      dsimp only
      cases e : appendList s k nn (q :: qs) with
      | mk s' o =>
        rw [e] at r1 r2 r3 r4
        cases o with
        | none => exact ⟨r1, r2, r3, fun h => by simp at h⟩
        | some i =>
          obtain ⟨w1, w2⟩ := r4 i rfl
          exact ⟨r1, r2, r3, fun _ => ⟨i, rfl, w1, fun _ => hl _ (by simp) w2⟩⟩

theorem connectUntil_forest (ok : EnvOK env Near) {R : Q → Prop} {s : Sys Q} {k : Nat}
    (last : Int) (c : Q) (hi : Inv s) (hg : Forest (Checked env) R s k) :
    GrowF env Near R s k c (connectUntil env s k last c) := by
  unfold connectUntil
  cases hnn : nearestNeighbor s.pool (s.tree k) env.d2 c with
  | none => exact GrowF.skip hi hg (by simp) (by simp)
  | some nn =>
    have hn := nearest_mem hi hnn
    dsimp only
    have hh := ok.untilHead (s.pool.node nn).config c
    have hc := checked_until (env := env) (s.pool.node nn).config c
    have hl := ok.untilLast (s.pool.node nn).config c
    revert hh hc hl
    generalize env.pathUntil (s.pool.node nn).config c = pu
    obtain ⟨l, fl⟩ := pu
    intro hh hc hl
    match l, hh, hc, hl with
    | [], _, _, _ => exact GrowF.skip hi hg (by simp) (by simp)
    | [_], _, _, _ => exact GrowF.skip hi hg (by simp) (by simp)
    | a :: q :: qs, hh, hc, hl =>
      have ha : a = (s.pool.node nn).config := by simpa using hh
      subst ha
      obtain ⟨r1, r2, r3, r4⟩ := appendList_forest (q :: qs) s nn hi hg hn hc
      dsimp only
      cases e : appendList s k nn (q :: qs) with
      | mk s' o =>
        rw [e] at r1 r2 r3 r4
        cases o with
        | none => exact ⟨r1, r2, r3, fun h => by simp at h⟩
        | some i =>
          obtain ⟨w1, w2⟩ := r4 i rfl
          refine ⟨r1, r2, r3, fun _ => ⟨i, rfl, w1, fun hs => ?_⟩⟩
          dsimp only at hs
          have hfl : fl = true := by
            by_cases hf : fl = true
            · exact hf
            · rw [if_neg hf] at hs; split at hs <;> simp at hs
          exact hl _ hfl (by simp) w2

/-! ## The two trees of the grasp planner -/

/-- Both trees are forests with checked edges. -/
structure FCore (env : Env Q K) (R0 R1 : Q → Prop) (s : Sys Q) : Prop where
  inv : Inv s
  others : ∀ k, 1 < k → (s.tree k).ids = []
  f0 : Forest (Checked env) R0 s 0
  f1 : Forest (Checked env) R1 s 1

theorem FCore.ofFrame {R0 R1 : Q → Prop} {s s' : Sys Q} {k : Nat} (h : FCore env R0 R1 s) (hk : k < 2)
    (hi : Inv s') (hf : Frame k s s')
    (hg : Forest (Checked env) (if k = 0 then R0 else R1) s' k) : FCore env R0 R1 s' := by
  have hk01 : k = 0 ∨ k = 1 := by omega
  refine ⟨hi, fun l hl => by rw [hf.other l (by omega)]; exact h.others l hl, ?_, ?_⟩
  · rcases hk01 with rfl | rfl
    · exact hg
    · exact forest_frame hf (by omega) h.f0
  · rcases hk01 with rfl | rfl
    · exact forest_frame hf (by omega) h.f1
    · exact hg

/-- Only trees, last IDs, goal node and solution differ. -/
structure SameSt (p p' : Planner Q) : Prop where
  startCfg : p'.startCfg = p.startCfg
  startValid : p'.startValid = p.startValid
  goalValid : p'.goalValid = p.goalValid

theorem SameSt.refl (p : Planner Q) : SameSt p p := ⟨rfl, rfl, rfl⟩

theorem SameSt.trans {p p' p'' : Planner Q} (h1 : SameSt p p') (h2 : SameSt p' p'') : SameSt p p'' :=
  ⟨h2.1.trans h1.1, h2.2.trans h1.2, h2.3.trans h1.3⟩

theorem biGrow_forest (ok : EnvOK env Near) (cut : Bool) {R0 R1 : Q → Prop} {p : Planner Q} {k : Nat}
    (hk : k < 2) (c : Q) (h : FCore env R0 R1 p.sys) :
    FCore env R0 R1 (biGrow env .connect cut p k c).1.sys ∧
    SameSt p (biGrow env .connect cut p k c).1 ∧
    (∀ l, ∀ j ∈ (p.sys.tree l).ids, j ∈ ((biGrow env .connect cut p k c).1.sys.tree l).ids ∧
      (biGrow env .connect cut p k c).1.sys.pool.node j = p.sys.pool.node j) ∧
    (∀ l, l < 2 → l ≠ k → (biGrow env .connect cut p k c).1.lastOf l = p.lastOf l) ∧
    ((biGrow env .connect cut p k c).2 = .success ∨ (biGrow env .connect cut p k c).2 = .part →
      ∃ i : Nat, (biGrow env .connect cut p k c).1.lastOf k = (i : Int) ∧
        i ∈ ((biGrow env .connect cut p k c).1.sys.tree k).ids ∧
        ((biGrow env .connect cut p k c).2 = .success →
          Near ((biGrow env .connect cut p k c).1.sys.pool.node i).config c)) := by
  have hk01 : k = 0 ∨ k = 1 := by omega
  have hge : Forest (Checked env) (if k = 0 then R0 else R1) p.sys k := by
    rcases hk01 with rfl | rfl
    · exact h.f0
    · exact h.f1
  have hs := connectUntil_forest ok (p.lastOf k) c h.inv hge
  unfold biGrow grow
  dsimp only
  revert hs
  generalize connectUntil env p.sys k (p.lastOf k) c = g
  obtain ⟨s', last', x⟩ := g
  rintro ⟨h1, h2, h3, h4⟩
  dsimp only at h1 h2 h3 h4 ⊢
  have hsys : (({ p with sys := s' } : Planner Q).setLast k last').sys = s' := by
    unfold Planner.setLast; split <;> rfl
  rw [hsys]
  refine ⟨h.ofFrame hk h1 h3 h2, ?_, fun l j hj => ⟨h3.sub l hj, h3.same l j hj⟩, ?_, ?_⟩
  · unfold Planner.setLast; split <;> exact ⟨rfl, rfl, rfl⟩
  · intro l hl hlk
    unfold Planner.setLast Planner.lastOf
    rcases hk01 with rfl | rfl
    · rw [if_neg hlk, if_neg hlk]; rfl
    · have : l = 0 := by omega
      subst this; rfl
  · intro hx
    obtain ⟨i, w1, w2, w4⟩ := h4 hx
    refine ⟨i, ?_, w2, w4⟩
    rw [← w1]
    unfold Planner.setLast Planner.lastOf
    rcases hk01 with rfl | rfl <;> rfl

/-- What holds after a cycle. -/
structure CycF (env : Env Q K) (Near : Q → Q → Prop) (R0 R1 : Q → Prop) (p p' : Planner Q)
    (found : Prop) : Prop where
  core : FCore env R0 R1 p'.sys
  same : SameSt p p'
  met : found → Met Near p'

theorem CycF.of {R0 R1 : Q → Prop} {p p' : Planner Q} {f f' : Prop}
    (h1 : CycF env Near R0 R1 p p' f) (h : f' → f) : CycF env Near R0 R1 p p' f' :=
  ⟨h1.core, h1.same, fun x => h1.met (h x)⟩

theorem CycF.trans {R0 R1 : Q → Prop} {p p' p'' : Planner Q} {f f' : Prop}
    (h1 : CycF env Near R0 R1 p p' f) (h2 : CycF env Near R0 R1 p' p'' f') :
    CycF env Near R0 R1 p p'' f' :=
  ⟨h2.core, h1.same.trans h2.same, h2.met⟩

theorem biSecond_forest (ok : EnvOK env Near) (cut : Bool) {R0 R1 : Q → Prop} {p : Planner Q}
    (h : FCore env R0 R1 p.sys) {i : Nat} (hl : p.lastOf 0 = (i : Int)) (hi : i ∈ (p.sys.tree 0).ids) :
    CycF env Near R0 R1 p (biSecond env .connect cut 0 1 p).2.2
      ((biSecond env .connect cut 0 1 p).2.1 = true) := by
  unfold biSecond
  rw [hl, getNodeInt_mem h.inv hi]
  dsimp only
  have hs := biGrow_forest ok cut (k := 1) (by omega) (p.sys.pool.node i).config h
  revert hs
  generalize biGrow env .connect cut p 1 (p.sys.pool.node i).config = g
  obtain ⟨p', x⟩ := g
  rintro ⟨h1, h2, h3, h4, h5⟩
  dsimp only at h1 h2 h3 h4 h5 ⊢
  by_cases hx : x = .success
  · rw [if_pos hx]
    refine ⟨h1, ⟨h2.1, h2.2, h2.3⟩, fun _ => ?_⟩
    obtain ⟨j, w1, w2, w3⟩ := h5 (Or.inl hx)
    have hla : p'.lastOf 0 = (i : Int) := by rw [h4 0 (by omega) (by omega)]; exact hl
    have w3 := w3 hx
    rw [← (h3 0 i hi).2] at w3
    exact ⟨i, j, hla, w1, (h3 0 i hi).1, w2, Or.inr w3⟩
  · rw [if_neg hx]
    exact ⟨h1, h2, fun h => by simp at h⟩

theorem biCycle_forest (ok : EnvOK env Near) (it : Item Q) {R0 R1 : Q → Prop} {p : Planner Q}
    (h : FCore env R0 R1 p.sys) :
    CycF env Near R0 R1 p (biCycle env .connect .connect it false p).2
      ((biCycle env .connect .connect it false p).1 = .leave (.ret true)) := by
  unfold biCycle
  simp only [Bool.false_eq_true, if_false]
  have hs := biGrow_forest ok it.cut (p := p) (k := 0) (by omega) it.rnd h
  revert hs
  generalize biGrow env .connect it.cut p 0 it.rnd = g
  obtain ⟨p1, x⟩ := g
  rintro ⟨h1, h2, h3, h4, h5⟩
  dsimp only at h1 h2 h3 h4 h5 ⊢
  have base : CycF env Near R0 R1 p p1 False := ⟨h1, h2, fun f => f.elim⟩
  by_cases hu : x = .undef
  · rw [if_pos hu]; exact base.of (by simp)
  rw [if_neg hu]
  by_cases ht : x = .throws
  · rw [if_pos ht]; exact base.of (by simp)
  rw [if_neg ht]
  have hr : CycF env Near R0 R1 p
      (if x = .part ∨ x = .success then biSecond env .connect it.cut 0 1 p1 else (x, false, p1)).2.2
      ((if x = .part ∨ x = .success then biSecond env .connect it.cut 0 1 p1
        else (x, false, p1)).2.1 = true) := by
    by_cases hx : x = .part ∨ x = .success
    · rw [if_pos hx]
      obtain ⟨i, w1, w2, _⟩ := h5 hx.symm
      exact base.trans (biSecond_forest ok _ h1 w1 w2)
    · rw [if_neg hx]; exact base.of (by simp)
  revert hr
  generalize (if x = .part ∨ x = .success then biSecond env .connect it.cut 0 1 p1
    else (x, false, p1)) = r
  obtain ⟨y, fnd, p2⟩ := r
  intro hr
  dsimp only at hr ⊢
  by_cases hu : y = .undef
  · rw [if_pos hu]; exact hr.of (by simp)
  rw [if_neg hu]
  by_cases ht : y = .throws
  · rw [if_pos ht]; exact hr.of (by simp)
  rw [if_neg ht]
  by_cases hto : it.timeout = true
  · rw [if_pos hto]; exact hr.of (by simp)
  rw [if_neg hto]
  by_cases hf : fnd = true
  · rw [if_pos hf]; exact hr.of (fun _ => hf)
  rw [if_neg hf]
  split
  · exact hr.of (by simp)
  · exact hr.of (by simp)

/-! ## New goals -/

variable {valid : Q → Bool}

theorem addRoot_forest {R0 R1 : Q → Prop} {p : IkPlanner Q} (h : FCore env R0 R1 p.base.sys) (g : Nat)
    {q : Q} (hq : R1 q) (hs : 0 < p.sols) :
    FCore env R0 R1 (addRoot p g q).2.base.sys ∧ SameSt p.base (addRoot p g q).2.base := by
  unfold addRoot
  cases e : push p.base.sys 1 q (-(p.sols : Int)) with
  | none => exact ⟨h, SameSt.refl _⟩
  | some x =>
    obtain ⟨i, s'⟩ := x
    obtain ⟨hi, hf, _⟩ := push_spec h.inv e
    exact ⟨h.ofFrame (k := 1) (by omega) hi hf
      (forest_push h.inv h.f1 (Or.inl ⟨by omega, hq⟩) e), ⟨rfl, rfl, rfl⟩⟩

theorem addIk_forest (ok : EnvOK env Near) (cut : Bool) {R0 R1 : Q → Prop} {p : IkPlanner Q}
    (h : FCore env R0 R1 p.base.sys) (g : Nat) {q : Q} (hq : R1 q) :
    FCore env R0 R1 (addIk env cut p g q).2.base.sys ∧ SameSt p.base (addIk env cut p g q).2.base := by
  unfold addIk
  dsimp only
  by_cases hn : (p.base.sys.tree 1).nrOfNodes > 0
  swap
  · rw [if_neg hn]
    exact addRoot_forest (p := { p with sols := p.sols + 1 }) h g hq (Nat.succ_pos _)
  rw [if_pos hn]
  have hs := connectComplete_forest ok cut p.base.lastAddedID2 q h.inv h.f1
  revert hs
  generalize connectComplete env cut p.base.sys 1 p.base.lastAddedID2 q = r
  obtain ⟨s', last', x⟩ := r
  rintro ⟨h1, h2, h3, _⟩
  dsimp only at h1 h2 h3 ⊢
  have hc : FCore env R0 R1 s' := h.ofFrame (k := 1) (by omega) h1 h3 h2
  split
  · exact ⟨hc, ⟨rfl, rfl, rfl⟩⟩
  split
  · exact ⟨hc, ⟨rfl, rfl, rfl⟩⟩
  split
  · split
    · exact ⟨hc, ⟨rfl, rfl, rfl⟩⟩
    · exact ⟨hc, ⟨rfl, rfl, rfl⟩⟩
  · obtain ⟨w1, w2⟩ := addRoot_forest
      (p := { p with
        sols := p.sols + 1
        base := { p.base with sys := s', lastAddedID2 := last' } }) hc g hq (Nat.succ_pos _)
    exact ⟨w1, ⟨w2.1, w2.2, w2.3⟩⟩

theorem searchGoal_forest (ok : EnvOK env Near) (it : IkItem Q) {R0 R1 : Q → Prop} {p : IkPlanner Q}
    (h : FCore env R0 R1 p.base.sys)
    (hq : ∀ g q, it.ik = some (g, q) → valid q = true → R1 q) :
    FCore env R0 R1 (searchGoal env valid it p).2.base.sys ∧
      SameSt p.base (searchGoal env valid it p).2.base := by
  unfold searchGoal
  by_cases hw : p.working.length = 0
  · rw [if_pos hw]; exact ⟨h, SameSt.refl _⟩
  rw [if_neg hw]
  cases hik : it.ik with
  | none => exact ⟨h, SameSt.refl _⟩
  | some x =>
    obtain ⟨g, q⟩ := x
    dsimp only
    by_cases hm : Ref.orig g ∈ p.mapped
    · rw [if_pos hm]; exact ⟨h, SameSt.refl _⟩
    rw [if_neg hm]
    by_cases hv : valid q = true
    · rw [if_pos hv]
      exact addIk_forest ok it.cut (p := { p with working := removeGrasp p.working (.orig g) }) h g
        (hq g q hik hv)
    · rw [if_neg hv]; exact ⟨h, SameSt.refl _⟩

theorem ikCycle_forest (ok : EnvOK env Near) (it : IkItem Q) {R0 R1 : Q → Prop} {p : IkPlanner Q}
    (h : FCore env R0 R1 p.base.sys)
    (hq : ∀ g q, it.ik = some (g, q) → valid q = true → R1 q) :
    CycF env Near R0 R1 p.base (ikCycle env valid it p).2.base
      ((ikCycle env valid it p).1 = .leave (.ret true)) := by
  unfold ikCycle
  by_cases hc : (it.sample || decide ((p.base.sys.tree 1).nrOfNodes = 0)) = true
  · rw [if_pos hc]
    have hs := searchGoal_forest (valid := valid) ok it h hq
    revert hs
    generalize searchGoal env valid it p = r
    obtain ⟨x, p'⟩ := r
    rintro ⟨h1, h2⟩
    dsimp only at h1 h2 ⊢
    have base : CycF env Near R0 R1 p.base p'.base False := ⟨h1, h2, fun f => f.elim⟩
    repeat' split
    all_goals exact base.of (by simp)
  · rw [if_neg hc]
    exact biCycle_forest ok it.toItem h

theorem ikLoop_forest (ok : EnvOK env Near) (item : Nat → IkItem Q) {R0 R1 : Q → Prop} :
    ∀ (n cyc : Nat) (p : IkPlanner Q), FCore env R0 R1 p.base.sys →
      (∀ i g q, i ≤ cyc + n → (item i).ik = some (g, q) → valid q = true → R1 q) →
      CycF env Near R0 R1 p.base (ikLoop env valid item n cyc p).2.2.base
        ((ikLoop env valid item n cyc p).1 = .ret true) := by
  intro n
  induction n with
  | zero =>
    intro cyc p h hq
    have hc := ikCycle_forest (valid := valid) ok (item cyc) h fun g q => hq cyc g q (by omega)
    unfold ikLoop
    revert hc
    generalize ikCycle env valid (item cyc) p = c
    obtain ⟨c, p'⟩ := c
    intro hc
    cases c with
    | leave r => exact hc.of (fun e => by rw [← e])
    | go => exact hc.of (fun e => by simp at e)
  | succ n ih =>
    intro cyc p h hq
    have hc := ikCycle_forest (valid := valid) ok (item cyc) h fun g q => hq cyc g q (by omega)
    unfold ikLoop
    revert hc
    generalize ikCycle env valid (item cyc) p = c
    obtain ⟨c, p'⟩ := c
    intro hc
    cases c with
    | leave r => exact hc.of (fun e => by rw [← e])
    | go => exact hc.trans (ih (cyc + 1) p' hc.core fun i g q hi => hq i g q (by omega))

/-! ## Solutions -/

theorem biCreateSolution_forest {R0 R1 : Q → Prop} {p : Planner Q} (h : FCore env R0 R1 p.sys)
    (hm : Met Near p) : ∃ l a b, R0 a ∧ R1 b ∧
      biCreateSolution p = (.ret true, { p with solution := some l }) ∧ BiPath env Near a b l := by
  obtain ⟨i, j, e1, e2, hi, hj, hnear⟩ := hm
  obtain ⟨c, r0, hc1, hc2, hp0, hR0, hc3, hc4⟩ := ancestors_forest' h.f0 hi
  obtain ⟨d, r1, hd1, hd2, hp1, hR1, hd3, hd4⟩ := ancestors_forest' h.f1 hj
  have w1 := biWalk_line h.inv hp0 c i ((p.sys.tree 0).nrOfNodes + 1) [i] (by omega) hc2 hc3
    (hc4.imp fun _ _ h => h.1)
  have w2 := biWalk_line h.inv hp1 d j ((p.sys.tree 1).nrOfNodes + 1) [] (by omega) hd2 hd3
    (hd4.imp fun _ _ h => h.1)
  refine ⟨(((i :: c).reverse ++ d).map fun i => (p.sys.pool.node i).config), _, _, hR0, hR1, ?_, ?_⟩
  · unfold biCreateSolution
    dsimp only
    rw [e1, e2, getNodeInt_mem h.inv hi, getNodeInt_mem h.inv hj]
    dsimp only
    rw [w1, w2]
    simp
  · refine ⟨_, _, (p.sys.pool.node i).config, (p.sys.pool.node j).config, List.map_append, ?_, ?_,
      line_path hc4, hnear, ?_, ?_⟩
    · rw [List.head?_map, List.head?_reverse, hc2]; rfl
    · simp
    · rw [← List.map_cons (f := fun i => (p.sys.pool.node i).config), List.getLast?_map, hd2]; rfl
    · rw [← List.map_cons (f := fun i => (p.sys.pool.node i).config), List.isChain_map]
      exact hd4.imp fun _ _ h => h.2

/-! ## Histories -/

/-- Roots of the start tree. -/
def Root0 (p : Planner Q) (q : Q) : Prop := p.startValid = true → q = p.startCfg

structure IkInv (env : Env Q K) (G : Q → Prop) (p : Planner Q) (st : Option Q) : Prop where
  core : FCore env (Root0 p) G p.sys
  valid : p.startValid = true → st = some p.startCfg ∧ env.free p.startCfg = true ∧
    env.inBd p.startCfg = true

theorem ikInv_same {G : Q → Prop} {p p' : Planner Q} {st : Option Q} (h : IkInv env G p st)
    (hc : FCore env (Root0 p) G p'.sys) (hs : SameSt p p') : IkInv env G p' st := by
  have e : Root0 p' = Root0 p := by unfold Root0; rw [hs.1, hs.2]
  exact ⟨by rw [e]; exact hc, by rw [hs.1, hs.2]; exact h.valid⟩

theorem ikInv_mono {G G' : Q → Prop} {p : Planner Q} {st : Option Q} (h : IkInv env G p st)
    (hG : ∀ q, G q → G' q) : IkInv env G' p st :=
  ⟨⟨h.core.inv, h.core.others, h.core.f0, forest_mono h.core.f1 hG⟩, h.valid⟩

theorem setStart_ik {G : Q → Prop} {p : Planner Q} {st : Option Q} (h : IkInv env G p st) (c : Q) :
    IkInv env G (setStart env p c).2 (some c) := by
  have trivial0 : ∀ p' : Planner Q, p'.sys = p.sys → p'.startValid = false → IkInv env G p' (some c) := by
    intro p' e1 e2
    refine ⟨⟨by rw [e1]; exact h.core.inv, by rw [e1]; exact h.core.others, ?_,
      by rw [e1]; exact h.core.f1⟩, fun hv => by rw [e2] at hv; simp at hv⟩
    rw [e1]
    exact forest_mono h.core.f0 fun q _ hv => by rw [e2] at hv; simp at hv
  unfold setStart
  dsimp only
  by_cases hf : env.free c = true
  swap
  · rw [if_pos (by simpa using hf)]; exact trivial0 _ rfl rfl
  by_cases hb : env.inBd c = true
  swap
  · rw [if_neg (by simpa using hf), if_pos (by simpa using hb)]; exact trivial0 _ rfl rfl
  rw [if_neg (by simpa using hf), if_neg (by simpa using hb)]
  have hi0 : Inv { p.sys with tree := upd p.sys.tree 0 Tree.empty } := reset_inv h.core.inv 0
  have ht0 : (upd p.sys.tree 0 Tree.empty 0).ids = [] := by simp [upd, Tree.empty]
  have hc0 : ∀ R0 : Q → Prop,
      FCore env R0 G { p.sys with tree := upd p.sys.tree 0 Tree.empty } := by
    intro R0
    refine ⟨hi0, ?_, forest_empty ht0, ?_⟩
    · intro k hk
      show (upd p.sys.tree 0 Tree.empty k).ids = []
      rw [upd_ne _ _ (by omega)]; exact h.core.others k hk
    · exact forest_congr (s := p.sys)
        (show upd p.sys.tree 0 Tree.empty 1 = p.sys.tree 1 by simp [upd]) (fun _ _ => rfl) h.core.f1
  cases hp : push { p.sys with tree := upd p.sys.tree 0 Tree.empty } 0 c (-1) with
  | none => exact ⟨hc0 _, fun _ => ⟨rfl, hf, hb⟩⟩
  | some x =>
    obtain ⟨i, s'⟩ := x
    obtain ⟨hi', hfr, _⟩ := push_spec hi0 hp
    refine ⟨(hc0 _).ofFrame (k := 0) (by omega) hi' hfr ?_, fun _ => ⟨rfl, hf, hb⟩⟩
    exact forest_push hi0 (hc0 _).f0 (Or.inl ⟨by omega, fun _ => rfl⟩) hp

theorem ikPlan_spec (ok : EnvOK env Near) (sched : IkSched Q) {G : Q → Prop} {st : Option Q}
    {p : IkPlanner Q} (h : IkInv env G p.base st)
    (hq : ∀ i g q, i < max 1 sched.maxCycles → (sched.item i).ik = some (g, q) → valid q = true → G q) :
    IkInv env G (ikPlan env valid sched p).2.base st ∧
    ((ikPlan env valid sched p).1 = .ret true → ∃ a b l, st = some a ∧ env.free a = true ∧
      env.inBd a = true ∧ G b ∧ (ikPlan env valid sched p).2.base.solution = some l ∧
      BiPath env Near a b l) := by
  unfold ikPlan
  by_cases hv : (p.base.startValid && p.base.goalValid) = true
  swap
  · rw [if_pos (by rw [Bool.eq_false_iff.mpr hv]; rfl)]
    exact ⟨h, fun e => by simp at e⟩
  rw [if_neg (by rw [hv]; simp)]
  simp only [Bool.and_eq_true] at hv
  dsimp only
  have h0 : IkInv env G { p.base with solution := none } st := ikInv_same h h.core ⟨rfl, rfl, rfl⟩
  have hl := ikLoop_forest (valid := valid) ok sched.item (sched.maxCycles - 1) 0
    { p with base := { p.base with solution := none }, vis := false } h0.core
    fun i g q hi => hq i g q (by omega)
  revert hl
  generalize ikLoop env valid sched.item (sched.maxCycles - 1) 0
    { p with base := { p.base with solution := none }, vis := false } = x
  obtain ⟨res, tmo, p'⟩ := x
  intro hc
  have hb : IkInv env G p'.base st := ikInv_same h0 hc.core hc.same
  have hm := hc.met
  have hsv : p'.base.startValid = true := hc.same.startValid.trans hv.1
  dsimp only at hm
  cases res with
  | ret bb =>
    dsimp only
    cases tmo with
    | true => rw [if_pos rfl]; exact ⟨hb, fun e => by simp at e⟩
    | false =>
      rw [if_neg (by simp)]
      have hbase : (if p.vis = true then { p' with vis := p.vis } else p').base = p'.base := by
        split <;> rfl
      cases bb with
      | false =>
        rw [if_neg (by simp), hbase]; exact ⟨hb, fun e => by simp at e⟩
      | true =>
        rw [if_pos rfl, hbase]
        obtain ⟨l, a, b, ha, hg, e, hpath⟩ := biCreateSolution_forest hb.core (hm rfl)
        simp only [e]
        refine ⟨ikInv_same hb hb.core ⟨rfl, rfl, rfl⟩, fun _ => ?_⟩
        obtain ⟨s1, s2, s3⟩ := hb.valid hsv
        have := ha hsv
        subst this
        exact ⟨_, b, l, s1, s2, s3, hg, rfl, hpath⟩
  | throws => exact ⟨hb, fun e => by simp at e⟩
  | undef => exact ⟨hb, fun e => by simp at e⟩
  | diverges => exact ⟨hb, fun e => by simp at e⟩

/-- The argument of the last `setStart`, updated by one more call. -/
def ikNext (st : Option Q) : IkOp Q → Option Q
  | .setStart c => some c
  | .reset => none
  | _ => st

theorem ikNext_eq (ops : List (IkOp Q)) : ops.foldl ikNext none = ikLastStart ops := by
  unfold ikLastStart
  congr 1

/-- The configurations that may be goals after one more call. -/
def nextG (valid : Q → Bool) (G : Q → Prop) : IkOp Q → Q → Prop
  | .plan sched => fun q => G q ∨ ∃ i g, i < max 1 sched.maxCycles ∧
      (sched.item i).ik = some (g, q) ∧ valid q = true
  | .reset => fun _ => False
  | _ => G

theorem ikStep_inv (ok : EnvOK env Near) {n : Nat} {G : Q → Prop} {st : Option Q} {p p' : IkPlanner Q}
    (h : IkInv env G p.base st) (op : IkOp Q) (e : ikStep env valid n p op = some p') :
    IkInv env (nextG valid G op) p'.base (ikNext st op) := by
  cases op with
  | setStart c =>
    simp only [ikStep, Option.some.injEq] at e
    subst e
    exact setStart_ik h c
  | setGoal c =>
    simp only [ikStep, Option.some.injEq] at e
    subst e
    exact h
  | plan sched =>
    have hp := (ikPlan_spec (valid := valid) ok sched (ikInv_mono h fun q hq => Or.inl hq)
      (G := nextG valid G (.plan sched)) fun i g q hi h1 h2 => Or.inr ⟨i, g, hi, h1, h2⟩).1
    simp only [ikStep] at e
    revert e hp
    generalize ikPlan env valid sched p = x
    obtain ⟨res, p1⟩ := x
    intro e hp
    cases res <;> simp at e
    · subst e; exact hp
    · subst e; exact hp
  | getSolution =>
    obtain ⟨sol, es⟩ := biGetSolution_same p.base
    have hp : IkInv env G { p.base with solution := sol } st :=
      ikInv_same h h.core ⟨rfl, rfl, rfl⟩
    simp only [ikStep] at e
    revert e es
    generalize biGetSolution p.base = x
    obtain ⟨res, p1⟩ := x
    intro e es
    dsimp only at es
    rw [← es] at hp
    cases res <;> simp at e
    · subst e; exact hp
    · subst e; exact hp
  | reset =>
    simp only [ikStep, Option.some.injEq] at e
    subst e
    obtain ⟨h1, h2⟩ := reset_inv' h.core.inv h.core.others
    exact ⟨⟨h1, fun k _ => h2 k, forest_empty (h2 0), forest_empty (h2 1)⟩,
      fun hv => by simp [ikReset, reset] at hv⟩

theorem ikRun_inv (ok : EnvOK env Near) {n : Nat} : ∀ (ops : List (IkOp Q)) (p p' : IkPlanner Q)
    (st : Option Q) (G : Q → Prop), IkInv env G p.base st → ikRun env valid n p ops = some p' →
    IkInv env (ops.foldl (nextG valid) G) p'.base (ops.foldl ikNext st) := by
  intro ops
  induction ops with
  | nil => intro p p' st G h e; simp only [ikRun, Option.some.injEq] at e; subst e; exact h
  | cons op ops ih =>
    intro p p' st G h e
    unfold ikRun at e
    cases hs : ikStep env valid n p op with
    | none => rw [hs] at e; simp at e
    | some p1 =>
      rw [hs] at e
      exact ih p1 p' _ _ (ikStep_inv ok h op hs) e

theorem ikNew_inv (cap : Nat) (q0 : Q) (n : Nat) (vis : Bool) :
    IkInv env (fun _ => False) (IkPlanner.new cap q0 n vis).base none :=
  ⟨⟨new_inv cap q0, fun _ _ => rfl, forest_empty rfl, forest_empty rfl⟩,
    fun hv => by simp [IkPlanner.new, Planner.new] at hv⟩

/-- The goals gathered over a history are offered and valid. -/
theorem nextG_offered : ∀ (ops : List (IkOp Q)) (q : Q), ops.foldl (nextG valid) (fun _ => False) q →
    Offered ops q ∧ valid q = true := by
  intro ops
  induction ops using List.reverseRecOn with
  | nil => intro q h; exact h.elim
  | append_singleton ops op ih =>
    intro q h
    rw [List.foldl_append] at h
    have carry : op ≠ .reset → ops.foldl (nextG valid) (fun _ => False) q →
        Offered (ops ++ [op]) q ∧ valid q = true := by
      intro hop h
      obtain ⟨⟨pre, sched, post, i, g, e, hr, hi, hik⟩, hv⟩ := ih q h
      refine ⟨⟨pre, sched, post ++ [op], i, g, by rw [e]; simp, ?_, hi, hik⟩, hv⟩
      intro o ho
      rcases List.mem_append.mp ho with ho | ho
      · exact hr o ho
      · rw [List.mem_singleton.mp ho]; exact hop
    cases op with
    | setStart c => exact carry (by simp) h
    | setGoal c => exact carry (by simp) h
    | getSolution => exact carry (by simp) h
    | reset => exact False.elim h
    | plan sched =>
      rcases h with h | ⟨i, g, hi, hik, hv⟩
      · exact carry (by simp) h
      · exact ⟨⟨ops, sched, [], i, g, rfl, by simp, hi, hik⟩, hv⟩

/-! ## The update flag and the working set -/

/-- The parts of the planner that extending the trees does not touch. -/
structure Rest (p p' : IkPlanner Q) : Prop where
  working : (∀ g, Ref.orig g ∉ p.working) → p'.working = p.working
  vis : p'.vis = p.vis

theorem addRoot_rest (p : IkPlanner Q) (g : Nat) (q : Q) : Rest p (addRoot p g q).2 := by
  unfold addRoot
  split <;> exact ⟨fun _ => rfl, rfl⟩

theorem addIk_rest (cut : Bool) (p : IkPlanner Q) (g : Nat) (q : Q) :
    Rest p (addIk env cut p g q).2 := by
  unfold addIk
  dsimp only
  split
  · split
    · exact ⟨fun _ => rfl, rfl⟩
    split
    · exact ⟨fun _ => rfl, rfl⟩
    split
    · split <;> exact ⟨fun _ => rfl, rfl⟩
    · exact ⟨fun h => (addRoot_rest _ g q).working h, (addRoot_rest _ g q).vis⟩
  · exact ⟨fun h => (addRoot_rest _ g q).working h, (addRoot_rest _ g q).vis⟩

theorem searchGoal_rest (it : IkItem Q) (p : IkPlanner Q) : Rest p (searchGoal env valid it p).2 := by
  unfold searchGoal
  split
  · exact ⟨fun _ => rfl, rfl⟩
  split
  · exact ⟨fun _ => rfl, rfl⟩
  · rename_i g q _
    split
    · exact ⟨fun _ => rfl, rfl⟩
    have he : (∀ g, Ref.orig g ∉ p.working) → removeGrasp p.working (.orig g) = p.working :=
      fun h => List.erase_of_not_mem (h g)
    dsimp only
    split
    · refine ⟨fun h => ?_, (addIk_rest _ _ g q).vis⟩
      have hw := (addIk_rest (env := env) it.cut
        { p with working := removeGrasp p.working (.orig g) } g q).working
        (by dsimp only; rw [he h]; exact h)
      rw [hw]; exact he h
    · exact ⟨he, rfl⟩

theorem ikCycle_rest (it : IkItem Q) (p : IkPlanner Q) : Rest p (ikCycle env valid it p).2 := by
  unfold ikCycle
  have := searchGoal_rest (env := env) (valid := valid) it p
  dsimp only
  split
  · repeat' split
    all_goals exact this
  · exact ⟨fun _ => rfl, rfl⟩

theorem ikLoop_rest (item : Nat → IkItem Q) : ∀ (n cyc : Nat) (p : IkPlanner Q),
    Rest p (ikLoop env valid item n cyc p).2.2 := by
  intro n
  induction n with
  | zero =>
    intro cyc p
    have hc := ikCycle_rest (env := env) (valid := valid) (item cyc) p
    unfold ikLoop
    revert hc
    generalize ikCycle env valid (item cyc) p = c
    obtain ⟨c, p'⟩ := c
    intro hc
    cases c <;> exact hc
  | succ n ih =>
    intro cyc p
    have hc := ikCycle_rest (env := env) (valid := valid) (item cyc) p
    unfold ikLoop
    revert hc
    generalize ikCycle env valid (item cyc) p = c
    obtain ⟨c, p'⟩ := c
    intro hc
    cases c with
    | leave r => exact hc
    | go =>
      have hi := ih (cyc + 1) p'
      dsimp only at hc ⊢
      exact ⟨fun h => (hi.working (by rw [hc.working h]; exact h)).trans (hc.working h),
        hi.vis.trans hc.vis⟩

theorem ikLoop_notimeout (item : Nat → IkItem Q) (ht : ∀ i, (item i).timeout = false) :
    ∀ (n cyc : Nat) (p : IkPlanner Q), (ikLoop env valid item n cyc p).2.1 = false := by
  intro n
  induction n with
  | zero =>
    intro cyc p
    unfold ikLoop
    generalize ikCycle env valid (item cyc) p = c
    obtain ⟨c, p'⟩ := c
    cases c with
    | leave r => exact ht cyc
    | go => rfl
  | succ n ih =>
    intro cyc p
    unfold ikLoop
    generalize ikCycle env valid (item cyc) p = c
    obtain ⟨c, p'⟩ := c
    cases c with
    | leave r => exact ht cyc
    | go => exact ih (cyc + 1) p'

theorem ikPlan_working (sched : IkSched Q) (p : IkPlanner Q) (h : ∀ g, Ref.orig g ∉ p.working) :
    (ikPlan env valid sched p).2.working = p.working := by
  unfold ikPlan
  split
  · rfl
  have hl := (ikLoop_rest (env := env) (valid := valid) sched.item (sched.maxCycles - 1) 0
    { p with base := { p.base with solution := none }, vis := false }).working h
  revert hl
  dsimp only
  generalize ikLoop env valid sched.item (sched.maxCycles - 1) 0
    { p with base := { p.base with solution := none }, vis := false } = x
  obtain ⟨res, tmo, p'⟩ := x
  intro hl
  dsimp only at hl
  have hw : (if p.vis = true then { p' with vis := p.vis } else p').working = p.working := by
    split <;> exact hl
  cases res with
  | ret b =>
    dsimp only
    split
    · exact hl
    split
    · split <;> exact hw
    · exact hw
  | throws => exact hl
  | undef => exact hl
  | diverges => exact hl

theorem cloneSet_orig (n g : Nat) : Ref.orig g ∉ cloneSet n := by simp [cloneSet]

theorem ikRun_working {n : Nat} : ∀ (ops : List (IkOp Q)) (p p' : IkPlanner Q),
    p.working = cloneSet n → ikRun env valid n p ops = some p' → p'.working = cloneSet n := by
  intro ops
  induction ops with
  | nil => intro p p' h e; simp only [ikRun, Option.some.injEq] at e; subst e; exact h
  | cons op ops ih =>
    intro p p' h e
    unfold ikRun at e
    cases hs : ikStep env valid n p op with
    | none => rw [hs] at e; simp at e
    | some p1 =>
      rw [hs] at e
      refine ih p1 p' ?_ e
      cases op with
      | setStart c => simp only [ikStep, Option.some.injEq] at hs; subst hs; exact h
      | setGoal c => simp only [ikStep, Option.some.injEq] at hs; subst hs; exact h
      | reset => simp only [ikStep, Option.some.injEq] at hs; subst hs; rfl
      | plan sched =>
        have hw := ikPlan_working (env := env) (valid := valid) sched p
          (by rw [h]; exact cloneSet_orig n)
        simp only [ikStep] at hs
        revert hs hw
        generalize ikPlan env valid sched p = x
        obtain ⟨res, p2⟩ := x
        intro hs hw
        cases res <;> simp at hs
        · subst hs; exact hw.trans h
        · subst hs; exact hw.trans h
      | getSolution =>
        simp only [ikStep] at hs
        revert hs
        generalize biGetSolution p.base = x
        obtain ⟨res, p2⟩ := x
        intro hs
        cases res <;> simp at hs
        · subst hs; exact h
        · subst hs; exact h

end Simox.Rrt
