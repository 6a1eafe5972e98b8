/-
Helper lemmas for object hierarchies.
-/
import Mathlib.Logic.Relation
import Mathlib.Data.List.Nodup
import Mathlib.Data.List.Perm.Subperm
import Mathlib.Order.Defs.LinearOrder
import Mathlib.Data.Nat.Basic
import Verif.Attach.Spec

namespace Simox.Attach

variable {P : Type}

theorem put_self {α : Type} (f : Nat → α) (k : Nat) (v : α) : put f k v k = v := if_pos rfl

theorem put_ne {α : Type} (f : Nat → α) {k x : Nat} (v : α) (h : x ≠ k) : put f k v x = f x :=
  if_neg h

theorem hasChild_iff (w : World P) (p c : Nat) : hasChild w p c = true ↔ c ∈ w.children p := by
  simp [hasChild]

theorem hasChildNamed_iff (w : World P) (p : Nat) (n : String) :
    hasChildNamed w p n = true ↔ ∃ d ∈ w.children p, w.name d = n := by
  simp [hasChildNamed]

/-- The world after a successful new attachment. -/
def linked (w : World P) (p c : Nat) : World P :=
  { w with children := put w.children p (w.children p ++ [c]), parent := put w.parent c (some p) }

/-- When `attachChild` makes a new link. -/
def Fresh (w : World P) (p c : Nat) : Prop :=
  p ≠ c ∧ c ∉ w.children p ∧ getParent w c = none ∧ ∀ d ∈ w.children p, w.name d ≠ w.name c

theorem attachChild_fresh {w : World P} {p c : Nat} (h : Fresh w p c) :
    attachChild w p c = .returned (linked w p c) true := by
  obtain ⟨h1, h2, h3, h4⟩ := h
  have e1 : hasChild w p c = false := by
    cases e : hasChild w p c with
    | false => rfl
    | true => exact absurd ((hasChild_iff w p c).1 e) h2
  have e2 : hasChildNamed w p (w.name c) = false := by
    cases e : hasChildNamed w p (w.name c) with
    | false => rfl
    | true =>
      obtain ⟨d, hd, hn⟩ := (hasChildNamed_iff w p _).1 e
      exact absurd hn (h4 d hd)
  have h3' : getParent { w with children := put w.children p (w.children p ++ [c]) } c = none := h3
  unfold attachChild
  rw [if_neg h1, e1, e2, h3]
  simp only [Bool.false_eq_true, if_false, Option.isSome_none]
  unfold attached
  rw [h3']
  rfl

theorem attachChild_child {w : World P} {p c : Nat} (hp : p ≠ c) (h : c ∈ w.children p) :
    attachChild w p c = .returned w true := by
  unfold attachChild
  rw [if_neg hp, if_pos ((hasChild_iff w p c).2 h)]

theorem attachChild_refused {w : World P} {p c : Nat} (hf : ¬ Fresh w p c)
    (hc : p = c ∨ c ∉ w.children p) : attachChild w p c = .returned w false := by
  unfold attachChild
  by_cases h1 : p = c
  · rw [if_pos h1]
  · rw [if_neg h1]
    have h2 : c ∉ w.children p := by
      rcases hc with hc | hc
      · exact absurd hc h1
      · exact hc
    rw [if_neg (fun e => h2 ((hasChild_iff w p c).1 e))]
    by_cases h3 : (getParent w c).isSome = true
    · rw [if_pos h3]
    · rw [if_neg h3]
      by_cases h4 : hasChildNamed w p (w.name c) = true
      · rw [if_pos h4]
      · exfalso
        apply hf
        refine ⟨h1, h2, ?_, fun d hd hn => h4 ((hasChildNamed_iff w p _).2 ⟨d, hd, hn⟩)⟩
        cases e : getParent w c with
        | none => rfl
        | some q => simp [e] at h3

theorem step_attach (one : P) (w : World P) (p c : Nat) :
    (Fresh w p c ∧ step one w (.attach p c) = linked w p c) ∨
      (¬ Fresh w p c ∧ step one w (.attach p c) = w) := by
  by_cases hf : Fresh w p c
  · left
    refine ⟨hf, ?_⟩
    simp only [step, attachChild_fresh hf]
  · right
    refine ⟨hf, ?_⟩
    by_cases hc : p = c ∨ c ∉ w.children p
    · simp only [step, attachChild_refused hf hc]
    · have h1 : p ≠ c := fun e => hc (Or.inl e)
      have h2 : c ∈ w.children p := by
        by_contra h; exact hc (Or.inr h)
      simp only [step, attachChild_child h1 h2]

theorem detach_child {w : World P} {p c : Nat} (h : c ∈ w.children p) :
    detachChild w p c = { w with
      children := put w.children p ((w.children p).erase c), parent := put w.parent c none } :=
  if_pos ((hasChild_iff w p c).2 h)

theorem detach_other {w : World P} {p c : Nat} (h : c ∉ w.children p) : detachChild w p c = w :=
  if_neg (fun e => h ((hasChild_iff w p c).1 e))

/-- The invariant of all histories. -/
structure Inv (w : World P) : Prop where
  down : ∀ p c, c ∈ w.children p → w.parent c = some p
  up : ∀ p c, w.parent c = some p → c ∈ w.children p
  nodup : ∀ p, (w.children p).Nodup
  names : SiblingsDistinct w
  deadP : ∀ p, w.alive p = false → w.children p = []
  deadC : ∀ p c, c ∈ w.children p → w.alive c = true
  bounded : ∃ N, ∀ x, N ≤ x → w.alive x = false

theorem Inv.alive_parent {w : World P} (hw : Inv w) {p c : Nat} (h : c ∈ w.children p) :
    w.alive p = true := by
  cases e : w.alive p with
  | true => rfl
  | false => rw [hw.deadP p e] at h; simp at h

theorem Inv.getParent {w : World P} (hw : Inv w) (c : Nat) : getParent w c = w.parent c := by
  unfold Simox.Attach.getParent
  cases e : w.parent c with
  | none => rfl
  | some p => simp [hw.alive_parent (hw.up p c e)]

theorem inv_init (one : P) : Inv (World.init one) :=
  ⟨fun _ _ h => by simp [World.init] at h, fun _ _ h => by simp [World.init] at h,
   fun _ => List.nodup_nil, fun _ _ _ h => by simp [World.init] at h, fun _ _ => rfl,
   fun _ _ h => by simp [World.init] at h, ⟨0, fun _ _ => rfl⟩⟩

theorem inv_create (one : P) {w : World P} (hw : Inv w) {x : Nat} (hx : w.alive x = false)
    (n : String) : Inv (create one w x n) := by
  have hch : ∀ p, (create one w x n).children p = w.children p := by
    intro p
    by_cases e : p = x
    · subst e; simp only [create, put_self]; exact (hw.deadP p hx).symm
    · simp only [create, put_ne _ _ e]
  have hnx : ∀ p, x ∉ w.children p := by
    intro p h
    have := hw.deadC p x h
    rw [hx] at this; exact absurd this (by decide)
  have hne : ∀ {p c}, c ∈ w.children p → c ≠ x := by
    intro p c h e; subst e; exact hnx p h
  have hpx : w.parent x = none := by
    cases e : w.parent x with
    | none => rfl
    | some p => exact absurd (hw.up p x e) (hnx p)
  have hpar : ∀ c, (create one w x n).parent c = w.parent c := by
    intro c
    by_cases e : c = x
    · subst e; simp only [create, put_self]; exact hpx.symm
    · simp only [create, put_ne _ _ e]
  refine ⟨?_, ?_, ?_, ?_, ?_, ?_, ?_⟩
  · intro p c h; rw [hch] at h; rw [hpar]; exact hw.down p c h
  · intro p c h; rw [hpar] at h; rw [hch]; exact hw.up p c h
  · intro p; rw [hch]; exact hw.nodup p
  · intro p c d hc hd hn
    rw [hch] at hc hd
    simp only [create] at hn
    rw [put_ne _ _ (hne hc), put_ne _ _ (hne hd)] at hn
    exact hw.names p c d hc hd hn
  · intro p h
    rw [hch]
    simp only [create] at h
    by_cases e : p = x
    · subst e; exact hw.deadP p hx
    · rw [put_ne _ _ e] at h; exact hw.deadP p h
  · intro p c h
    rw [hch] at h
    simp only [create]
    rw [put_ne _ _ (hne h)]
    exact hw.deadC p c h
  · obtain ⟨N, hN⟩ := hw.bounded
    refine ⟨max N (x + 1), fun y hy => ?_⟩
    have h1 : N ≤ y := le_trans (le_max_left _ _) hy
    have h2 : x + 1 ≤ y := le_trans (le_max_right _ _) hy
    simp only [create]
    rw [put_ne _ _ (by omega)]
    exact hN y h1

theorem mem_linked {w : World P} {p c q d : Nat} :
    d ∈ (linked w p c).children q ↔ d ∈ w.children q ∨ (q = p ∧ d = c) := by
  by_cases e : q = p
  · subst e; simp [linked, put_self]
  · simp [linked, put_ne _ _ e, e]

theorem inv_linked {w : World P} (hw : Inv w) {p c : Nat} (hp : w.alive p = true)
    (hc : w.alive c = true) (hf : Fresh w p c) : Inv (linked w p c) := by
  obtain ⟨h1, h2, h3, h4⟩ := hf
  rw [hw.getParent] at h3
  have hno : ∀ q, c ∉ w.children q := by
    intro q h; rw [hw.down q c h] at h3; exact absurd h3 (by simp)
  refine ⟨?_, ?_, ?_, ?_, ?_, ?_, ?_⟩
  · intro q d h
    rcases mem_linked.1 h with h | ⟨rfl, rfl⟩
    · have : d ≠ c := fun e => hno q (e ▸ h)
      simp only [linked]
      rw [put_ne _ _ this]; exact hw.down q d h
    · simp only [linked, put_self]
  · intro q d h
    simp only [linked] at h
    by_cases e : d = c
    · subst e
      rw [put_self] at h
      have : q = p := (Option.some.inj h).symm
      exact mem_linked.2 (Or.inr ⟨this, rfl⟩)
    · rw [put_ne _ _ e] at h
      exact mem_linked.2 (Or.inl (hw.up q d h))
  · intro q
    by_cases e : q = p
    · subst e
      simp only [linked, put_self]
      rw [List.nodup_append]
      refine ⟨hw.nodup q, List.nodup_singleton _, ?_⟩
      intro a ha b hb
      rw [List.mem_singleton] at hb
      subst hb
      exact fun e => h2 (e ▸ ha)
    · simp only [linked, put_ne _ _ e]; exact hw.nodup q
  · intro q d d' hd hd' hn
    have hn' : w.name d = w.name d' := hn
    rcases mem_linked.1 hd with k | ⟨e1, e2⟩
    · rcases mem_linked.1 hd' with k' | ⟨e1', e2'⟩
      · exact hw.names q d d' k k' hn'
      · subst e1'; subst e2'; exact absurd hn' (h4 d k)
    · rcases mem_linked.1 hd' with k' | ⟨e1', e2'⟩
      · subst e1; subst e2; exact absurd hn'.symm (h4 d' k')
      · rw [e2, e2']
  · intro q h
    have h' : w.alive q = false := h
    have : q ≠ p := fun e => by subst e; rw [hp] at h'; exact absurd h' (by decide)
    simp only [linked, put_ne _ _ this]
    exact hw.deadP q h'
  · intro q d h
    rcases mem_linked.1 h with h | ⟨_, rfl⟩
    · exact hw.deadC q d h
    · exact hc
  · exact hw.bounded

theorem mem_unlinked {w : World P} (hw : Inv w) {p c q d : Nat} (h : c ∈ w.children p) :
    d ∈ (detachChild w p c).children q ↔ d ∈ w.children q ∧ d ≠ c := by
  rw [detach_child h]
  by_cases e : q = p
  · subst e
    simp only [put_self]
    rw [List.Nodup.mem_erase_iff (hw.nodup q)]
    exact ⟨fun x => ⟨x.2, x.1⟩, fun x => ⟨x.2, x.1⟩⟩
  · simp only [put_ne _ _ e]
    refine ⟨fun hd => ⟨hd, fun ec => ?_⟩, fun hd => hd.1⟩
    subst ec
    have h1 := hw.down q d hd
    have h2 := hw.down p d h
    rw [h1] at h2
    exact e (Option.some.inj h2)

theorem inv_detach {w : World P} (hw : Inv w) (p c : Nat) : Inv (detachChild w p c) := by
  by_cases h : c ∈ w.children p
  · have hm : ∀ q d, d ∈ (detachChild w p c).children q ↔ d ∈ w.children q ∧ d ≠ c :=
      fun q d => mem_unlinked hw h
    have hpar : ∀ d, d ≠ c → (detachChild w p c).parent d = w.parent d := by
      intro d e; rw [detach_child h]; exact put_ne _ _ e
    have hparc : (detachChild w p c).parent c = none := by
      rw [detach_child h]; exact put_self _ _ _
    have hal : (detachChild w p c).alive = w.alive := by rw [detach_child h]
    have hna : (detachChild w p c).name = w.name := by rw [detach_child h]
    refine ⟨?_, ?_, ?_, ?_, ?_, ?_, ?_⟩
    · intro q d hd
      have := (hm q d).1 hd
      rw [hpar d this.2]; exact hw.down q d this.1
    · intro q d hd
      by_cases e : d = c
      · subst e; rw [hparc] at hd; exact absurd hd (by simp)
      · rw [hpar d e] at hd
        exact (hm q d).2 ⟨hw.up q d hd, e⟩
    · intro q
      rw [detach_child h]
      by_cases e : q = p
      · subst e; simp only [put_self]; exact (hw.nodup q).erase c
      · simp only [put_ne _ _ e]; exact hw.nodup q
    · intro q d d' hd hd' hn
      rw [hna] at hn
      exact hw.names q d d' ((hm q d).1 hd).1 ((hm q d').1 hd').1 hn
    · intro q hq
      rw [hal] at hq
      rw [List.eq_nil_iff_forall_not_mem]
      intro d hd
      have := ((hm q d).1 hd).1
      rw [hw.deadP q hq] at this; simp at this
    · intro q d hd
      rw [hal]; exact hw.deadC q d ((hm q d).1 hd).1
    · rw [hal]; exact hw.bounded
  · rw [detach_other h]; exact hw

theorem mem_destroy {w : World P} {x q d : Nat} :
    d ∈ (destroy w x).children q ↔ d ∈ w.children q ∧ q ≠ x := by
  by_cases e : q = x
  · subst e; simp [destroy, put_self]
  · simp [destroy, put_ne _ _ e, e]

theorem inv_destroy {w : World P} (hw : Inv w) {x : Nat} (hx : ∀ p, x ∉ w.children p) :
    Inv (destroy w x) := by
  have hpar : ∀ d, d ∉ w.children x → (destroy w x).parent d = w.parent d := fun d h => if_neg h
  have hparc : ∀ d, d ∈ w.children x → (destroy w x).parent d = none := fun d h => if_pos h
  refine ⟨?_, ?_, ?_, ?_, ?_, ?_, ?_⟩
  · intro q d hd
    have h := mem_destroy.1 hd
    have hn : d ∉ w.children x := by
      intro h'
      have h1 := hw.down q d h.1
      rw [hw.down x d h'] at h1
      exact h.2 (Option.some.inj h1).symm
    rw [hpar d hn]; exact hw.down q d h.1
  · intro q d hd
    by_cases e : d ∈ w.children x
    · rw [hparc d e] at hd; exact absurd hd (by simp)
    · rw [hpar d e] at hd
      have := hw.up q d hd
      exact mem_destroy.2 ⟨this, fun e' => e (e' ▸ this)⟩
  · intro q
    by_cases e : q = x
    · subst e; simp only [destroy, put_self]; exact List.nodup_nil
    · simp only [destroy, put_ne _ _ e]; exact hw.nodup q
  · intro q d d' hd hd' hn
    exact hw.names q d d' (mem_destroy.1 hd).1 (mem_destroy.1 hd').1 hn
  · intro q hq
    by_cases e : q = x
    · subst e; simp only [destroy, put_self]
    · simp only [destroy, put_ne _ _ e] at hq ⊢
      exact hw.deadP q hq
  · intro q d hd
    have h := mem_destroy.1 hd
    have : d ≠ x := fun e => hx q (e ▸ h.1)
    simp only [destroy, put_ne _ _ this]
    exact hw.deadC q d h.1
  · obtain ⟨N, hN⟩ := hw.bounded
    refine ⟨N, fun y hy => ?_⟩
    by_cases e : y = x
    · subst e; simp only [destroy, put_self]
    · simp only [destroy, put_ne _ _ e]; exact hN y hy

theorem inv_step (one : P) {w : World P} (hw : Inv w) {op : Op} (hl : Legal w op) :
    Inv (step one w op) := by
  cases op with
  | create x n => exact inv_create one hw hl n
  | attach p c =>
    rcases step_attach one w p c with ⟨hf, e⟩ | ⟨_, e⟩
    · rw [e]; exact inv_linked hw hl.1 hl.2 hf
    · rw [e]; exact hw
  | detach p c => exact inv_detach hw p c
  | destroy x => exact inv_destroy hw hl.2

theorem Reach.inv {one : P} {h : List Op} {w : World P} (hr : Reach one h w) : Inv w := by
  induction hr with
  | start => exact inv_init one
  | next _ hl ih => exact inv_step one ih hl

theorem GoodReach.reach {one : P} {h : List Op} {w : World P} (hr : GoodReach one h w) :
    Reach one h w := by
  induction hr with
  | start => exact .start
  | next _ hl _ ih => exact .next ih hl

/-! ### Cycles -/

theorem transGen_add {α : Type} {r s : α → α → Prop} {p c : α}
    (hs : ∀ x y, s x y → r x y ∨ (x = p ∧ y = c)) {x y : α} (h : Relation.TransGen s x y) :
    Relation.TransGen r x y ∨ (Relation.ReflTransGen r x p ∧ Relation.ReflTransGen r c y) := by
  induction h with
  | single h =>
    rcases hs _ _ h with h | ⟨rfl, rfl⟩
    · exact Or.inl (.single h)
    · exact Or.inr ⟨.refl, .refl⟩
  | tail h1 h2 ih =>
    rcases hs _ _ h2 with h2 | ⟨rfl, rfl⟩
    · rcases ih with ih | ⟨ih1, ih2⟩
      · exact Or.inl (ih.tail h2)
      · exact Or.inr ⟨ih1, ih2.tail h2⟩
    · rcases ih with ih | ⟨ih1, _⟩
      · exact Or.inr ⟨ih.to_reflTransGen, .refl⟩
      · exact Or.inr ⟨ih1, .refl⟩

theorem forest_sub {w w' : World P} (h : ∀ p c, c ∈ w'.children p → c ∈ w.children p)
    (hw : Forest w) : Forest w' := by
  have key : ∀ x y, Below w' x y → Below w x y := by
    intro x y hxy
    induction hxy with
    | single hc => exact .single (h _ _ hc)
    | tail _ hc ih => exact ih.tail (h _ _ hc)
  intro x hx
  exact hw x (key x x hx)

theorem forest_step (one : P) {w : World P} (hf : Forest w) {op : Op} (hi : Inv w)
    (hl : Legal w op) (hg : NotAbove w op) : Forest (step one w op) := by
  cases op with
  | create x n =>
    apply forest_sub (w := w) _ hf
    intro p c hc
    by_cases e : p = x
    · subst e; simp [step, create, put_self] at hc
    · simpa [step, create, put_ne _ _ e] using hc
  | attach p c =>
    rcases step_attach one w p c with ⟨_, e⟩ | ⟨_, e⟩
    · rw [e]
      intro x hx
      have hs : ∀ a b, Child (linked w p c) a b → Child w a b ∨ (a = p ∧ b = c) :=
        fun a b h => mem_linked.1 h
      rcases transGen_add hs hx with h | ⟨h1, h2⟩
      · exact hf x h
      · exact hg (h2.trans h1)
    · rw [e]; exact hf
  | detach p c =>
    apply forest_sub (w := w) _ hf
    intro q d hd
    change d ∈ (detachChild w p c).children q at hd
    by_cases h : c ∈ w.children p
    · exact ((mem_unlinked hi h).1 hd).1
    · rw [detach_other h] at hd; exact hd
  | destroy x =>
    apply forest_sub (w := w) _ hf
    intro q d hd
    exact (mem_destroy.1 hd).1

theorem GoodReach.forest {one : P} {h : List Op} {w : World P} (hr : GoodReach one h w) :
    Forest w := by
  induction hr with
  | start =>
    intro x hx
    obtain ⟨y, hy, _⟩ := Relation.TransGen.head'_iff.1 hx
    simp [Child, World.init] at hy
  | next hr hl hg ih => exact forest_step one ih hr.reach.inv hl hg

/-- In a world with finitely many objects and no cycle, going down ends. -/
theorem acc_of_forest {w : World P} (hi : Inv w) (hf : Forest w) (x : Nat) :
    Acc (fun c p => Child w p c) x := by
  obtain ⟨N, hN⟩ := hi.bounded
  have key : ∀ n (s : List Nat), s.Nodup → (∀ y ∈ s, y < N) → n + s.length = N → ∀ x, x < N →
      (∀ y ∈ s, Below w y x) → Acc (fun c p => Child w p c) x := by
    intro n
    induction n with
    | zero =>
      intro s hs hb hl x hx ha
      exfalso
      have hxs : x ∈ s := by
        by_contra hxs
        have hnd : (x :: s).Nodup := List.nodup_cons.2 ⟨hxs, hs⟩
        have hsub : (x :: s) ⊆ List.range N := by
          intro y hy
          rcases List.mem_cons.1 hy with rfl | hy
          · exact List.mem_range.2 hx
          · exact List.mem_range.2 (hb y hy)
        have := (hnd.subperm hsub).length_le
        simp at this; omega
      exact hf x (ha x hxs)
    | succ n ih =>
      intro s hs hb hl x hx ha
      constructor
      intro c hc
      have hxs : x ∉ s := fun h => hf x (ha x h)
      have hcN : c < N := by
        by_contra h
        have := hi.deadC x c hc
        rw [hN c (by omega)] at this; exact absurd this (by decide)
      apply ih (x :: s) (List.nodup_cons.2 ⟨hxs, hs⟩)
      · intro y hy
        rcases List.mem_cons.1 hy with rfl | hy
        · exact hx
        · exact hb y hy
      · simp; omega
      · exact hcN
      · intro y hy
        rcases List.mem_cons.1 hy with rfl | hy
        · exact .single hc
        · exact (ha y hy).tail hc
  by_cases hx : x < N
  · exact key N [] List.nodup_nil (by simp) (by simp) x hx (by simp)
  · constructor
    intro c hc
    have : w.children x = [] := hi.deadP x (hN x (by omega))
    rw [show Child w x c = (c ∈ w.children x) from rfl, this] at hc
    simp at hc

/-! ### Recursive queries -/

theorem scan_congr (hit : Nat → Bool) (r r' : Nat → Option Bool) (l : List Nat)
    (h : ∀ y ∈ l, ∀ b, r y = some b → r' y = some b) (b : Bool) (hs : scan hit r l = some b) :
    scan hit r' l = some b := by
  induction l with
  | nil => exact hs
  | cons y ys ih =>
    unfold scan at hs ⊢
    by_cases hy : hit y = true
    · rw [if_pos hy] at hs ⊢; exact hs
    · rw [if_neg hy] at hs ⊢
      cases e : r y with
      | none => rw [e] at hs; exact absurd hs (by simp)
      | some b' =>
        rw [h y (by simp) b' e]
        rw [e] at hs
        cases b' with
        | true => exact hs
        | false => exact ih (fun z hz => h z (by simp [hz])) hs

theorem hasChildRec_mono (w : World P) (hit : Nat → Bool) :
    ∀ f x b, hasChildRec w hit f x = some b → hasChildRec w hit (f + 1) x = some b := by
  intro f
  induction f with
  | zero => intro x b h; exact absurd h (by simp [hasChildRec])
  | succ f ih =>
    intro x b h
    rw [hasChildRec] at h ⊢
    exact scan_congr hit _ _ _ (fun y _ b' hb => ih y b' hb) b h

theorem hasChildRec_le (w : World P) (hit : Nat → Bool) {f g : Nat} (hfg : f ≤ g) (x : Nat)
    (b : Bool) (h : hasChildRec w hit f x = some b) : hasChildRec w hit g x = some b := by
  induction hfg with
  | refl => exact h
  | step _ ih => exact hasChildRec_mono w hit _ x b ih

theorem below_iff (w : World P) (x y : Nat) :
    Below w x y ↔ ∃ c ∈ w.children x, c = y ∨ Below w c y := by
  unfold Below
  rw [Relation.TransGen.head'_iff]
  constructor
  · rintro ⟨c, hc, h⟩
    refine ⟨c, hc, ?_⟩
    rcases Relation.reflTransGen_iff_eq_or_transGen.1 h with e | h
    · exact Or.inl e.symm
    · exact Or.inr h
  · rintro ⟨c, hc, h⟩
    refine ⟨c, hc, ?_⟩
    rcases h with rfl | h
    · exact .refl
    · exact h.to_reflTransGen

theorem scan_spec (w : World P) (hit : Nat → Bool) (r : Nat → Option Bool) (l : List Nat)
    (h : ∀ y ∈ l, ∃ b, r y = some b ∧ (b = true ↔ ∃ z, Below w y z ∧ hit z = true)) :
    ∃ b, scan hit r l = some b ∧
      (b = true ↔ ∃ y ∈ l, hit y = true ∨ ∃ z, Below w y z ∧ hit z = true) := by
  induction l with
  | nil => exact ⟨false, rfl, by simp⟩
  | cons y ys ih =>
    unfold scan
    by_cases hy : hit y = true
    · rw [if_pos hy]
      exact ⟨true, rfl, by simp [hy]⟩
    · rw [if_neg hy]
      obtain ⟨b, e, hb⟩ := h y (by simp)
      rw [e]
      cases b with
      | true =>
        refine ⟨true, rfl, ?_⟩
        simp only [true_iff]
        exact ⟨y, by simp, Or.inr (hb.1 rfl)⟩
      | false =>
        obtain ⟨b', e', hb'⟩ := ih (fun z hz => h z (by simp [hz]))
        refine ⟨b', e', hb'.trans ?_⟩
        constructor
        · rintro ⟨z, hz, h'⟩
          exact ⟨z, by simp [hz], h'⟩
        · rintro ⟨z, hz, h'⟩
          rcases List.mem_cons.1 hz with rfl | hz
          · rcases h' with h' | h'
            · exact absurd h' hy
            · exact absurd (hb.2 h') (by simp)
          · exact ⟨z, hz, h'⟩

theorem hasChildRec_spec (w : World P) (hit : Nat → Bool) {x : Nat}
    (hx : Acc (fun c p => Child w p c) x) :
    ∃ f b, (∀ g, f ≤ g → hasChildRec w hit g x = some b) ∧
      (b = true ↔ ∃ z, Below w x z ∧ hit z = true) := by
  induction hx with
  | intro x _ ih =>
    -- a common bound for all children
    have hall : ∀ l : List Nat, (∀ y ∈ l, Child w x y) → ∃ f, ∀ g, f ≤ g → ∀ y ∈ l, ∃ b,
        hasChildRec w hit g y = some b ∧ (b = true ↔ ∃ z, Below w y z ∧ hit z = true) := by
      intro l
      induction l with
      | nil => intro _; exact ⟨0, fun g _ y hy => by simp at hy⟩
      | cons y ys ihl =>
        intro hl
        obtain ⟨f1, h1⟩ := ihl (fun z hz => hl z (by simp [hz]))
        obtain ⟨f2, b2, h2, h3⟩ := ih y (hl y (by simp))
        refine ⟨max f1 f2, fun g hg z hz => ?_⟩
        rcases List.mem_cons.1 hz with rfl | hz
        · exact ⟨b2, h2 g (le_trans (le_max_right _ _) hg), h3⟩
        · exact h1 g (le_trans (le_max_left _ _) hg) z hz
    obtain ⟨f, hf⟩ := hall (w.children x) (fun y hy => hy)
    obtain ⟨b, e, hb⟩ := scan_spec w hit _ _ (hf f (Nat.le_refl f))
    refine ⟨f + 1, b, ?_, ?_⟩
    · intro g hg
      apply hasChildRec_le w hit hg
      exact e
    · rw [hb]
      constructor
      · rintro ⟨y, hy, h | ⟨z, hz, h⟩⟩
        · exact ⟨y, (below_iff w x y).2 ⟨y, hy, Or.inl rfl⟩, h⟩
        · exact ⟨z, (below_iff w x z).2 ⟨y, hy, Or.inr hz⟩, h⟩
      · rintro ⟨z, hz, h⟩
        obtain ⟨c, hc, rfl | hz⟩ := (below_iff w x z).1 hz
        · exact ⟨c, hc, Or.inl h⟩
        · exact ⟨c, hc, Or.inr ⟨z, hz, h⟩⟩

/-- On a cycle a search that finds nothing never returns. -/
theorem hasChildRec_cycle (w : World P) (hit : Nat → Bool) :
    ∀ f x, Below w x x → (∀ z, Below w x z → hit z = false) → hasChildRec w hit f x = none := by
  have key : ∀ f x, (∃ y, Below w y y ∧ (x = y ∨ Below w x y)) →
      (∀ z, Below w x z → hit z = false) → hasChildRec w hit f x = none := by
    intro f
    induction f with
    | zero => intro x _ _; rfl
    | succ f ih =>
      intro x hx hn
      rw [hasChildRec]
      obtain ⟨y, hy, hxy⟩ := hx
      have hxy' : Below w x y := by
        rcases hxy with rfl | h
        · exact hy
        · exact h
      obtain ⟨c, hc, hcy⟩ := (below_iff w x y).1 hxy'
      have hrec : ∀ d ∈ w.children x, (hasChildRec w hit f d = none) ∨
          ∃ b, hasChildRec w hit f d = some b := by
        intro d _
        cases hasChildRec w hit f d with
        | none => exact Or.inl rfl
        | some b => exact Or.inr ⟨b, rfl⟩
      have hcn : hasChildRec w hit f c = none :=
        ih c ⟨y, hy, hcy⟩ (fun z hz => hn z ((below_iff w x z).2 ⟨c, hc, Or.inr hz⟩))
      -- a call on a child cannot return `true`
      have hnt : ∀ g d, (∀ z, Below w d z → hit z = false) → hasChildRec w hit g d ≠ some true := by
        intro g
        induction g with
        | zero => intro d _; simp [hasChildRec]
        | succ g ihg =>
          intro d hd
          rw [hasChildRec]
          have hl : ∀ l : List Nat, (∀ e ∈ l, e ∈ w.children d) →
              scan hit (hasChildRec w hit g) l ≠ some true := by
            intro l
            induction l with
            | nil => intro _; simp [scan]
            | cons e es ihl =>
              intro hle
              have he : e ∈ w.children d := hle e (by simp)
              unfold scan
              have : hit e = false := hd e ((below_iff w d e).2 ⟨e, he, Or.inl rfl⟩)
              rw [this]
              simp only [Bool.false_eq_true, if_false]
              have hne := ihg e (fun z hz => hd z ((below_iff w d z).2 ⟨e, he, Or.inr hz⟩))
              cases e' : hasChildRec w hit g e with
              | none => simp
              | some b =>
                cases b with
                | true => exact absurd e' hne
                | false => exact ihl (fun z hz => hle z (by simp [hz]))
          exact hl _ (fun _ h => h)
      have hl : ∀ l : List Nat, (∀ e ∈ l, e ∈ w.children x) → c ∈ l →
          scan hit (hasChildRec w hit f) l = none := by
        intro l
        induction l with
        | nil => intro _ h; simp at h
        | cons e es ihl =>
          intro hle hcl
          have he : e ∈ w.children x := hle e (by simp)
          unfold scan
          have : hit e = false := hn e ((below_iff w x e).2 ⟨e, he, Or.inl rfl⟩)
          rw [this]
          simp only [Bool.false_eq_true, if_false]
          have hne := hnt f e (fun z hz => hn z ((below_iff w x z).2 ⟨e, he, Or.inr hz⟩))
          cases e' : hasChildRec w hit f e with
          | none => rfl
          | some b =>
            cases b with
            | true => exact absurd e' hne
            | false =>
              simp only
              apply ihl (fun z hz => hle z (by simp [hz]))
              rcases List.mem_cons.1 hcl with rfl | h
              · rw [hcn] at e'; exact absurd e' (by simp)
              · exact h
      exact hl _ (fun _ h => h) hc
  intro f x hx hn
  exact key f x ⟨x, hx, Or.inl rfl⟩ hn

end Simox.Attach
