/-
Helper lemmas on poses and initialization of object hierarchies.
-/
import Verif.Attach.Lemmas

namespace Simox.Attach

variable {P : Type}

/-- Same objects and links. -/
structure Same (w w' : World P) : Prop where
  alive : w'.alive = w.alive
  name : w'.name = w.name
  children : w'.children = w.children
  parent : w'.parent = w.parent

theorem Same.refl (w : World P) : Same w w := ⟨rfl, rfl, rfl, rfl⟩

theorem Same.trans {a b c : World P} (h : Same a b) (k : Same b c) : Same a c :=
  ⟨k.alive.trans h.alive, k.name.trans h.name, k.children.trans h.children,
    k.parent.trans h.parent⟩

theorem pushPose_same (rec : World P → Nat → P → Option (World P)) (x : Nat)
    (hrec : ∀ w c g w', rec w c g = some w' → Same w w') :
    ∀ (l : List Nat) (w w' : World P), pushPose rec x l w = some w' → Same w w' := by
  intro l
  induction l with
  | nil => intro w w' h; cases h; exact Same.refl w
  | cons c cs ih =>
    intro w w' h
    unfold pushPose at h
    cases e : rec w c (w.pose x) with
    | none => rw [e] at h; exact absurd h (by simp)
    | some v => rw [e] at h; exact (hrec _ _ _ _ e).trans (ih v w' h)

theorem updatePose_same : ∀ (f : Nat) (w : World P) (x : Nat) (g : P) (w' : World P),
    updatePose f w x g = some w' → Same w w' := by
  intro f
  induction f with
  | zero => intro w x g w' h; exact absurd h (by simp [updatePose])
  | succ f ih =>
    intro w x g w' h
    rw [updatePose] at h
    have := pushPose_same _ x ih _ _ _ h
    exact ⟨this.alive, this.name, this.children, this.parent⟩

/-- The poses after pushing `m` down from `x`. -/
def Pushed (w : World P) (x : Nat) (m : P) (a b : World P) : Prop :=
  (∀ z, z = x ∨ Below w x z → b.pose z = m) ∧ ∀ z, ¬ (z = x ∨ Below w x z) → b.pose z = a.pose z

theorem pushPose_spec {w : World P} (hf : Forest w) {x : Nat} (m : P)
    (rec : World P → Nat → P → Option (World P))
    (hrec : ∀ c, Child w x c → ∀ a g, a.children = w.children →
      ∃ b, rec a c g = some b ∧ Same a b ∧ Pushed w c g a b) :
    ∀ (l : List Nat), (∀ c ∈ l, Child w x c) → ∀ a : World P, a.children = w.children →
      a.pose x = m → ∃ b, pushPose rec x l a = some b ∧ Same a b ∧
        (∀ z, (∃ c ∈ l, z = c ∨ Below w c z) → b.pose z = m) ∧
        (∀ z, ¬ (∃ c ∈ l, z = c ∨ Below w c z) → b.pose z = a.pose z) := by
  intro l
  induction l with
  | nil =>
    intro _ a _ _
    exact ⟨a, rfl, Same.refl a, fun z hz => by simp at hz, fun z _ => rfl⟩
  | cons c cs ih =>
    intro hl a ha hx
    have hc : Child w x c := hl c (by simp)
    obtain ⟨b, e, hs, hp1, hp2⟩ := hrec c hc a (a.pose x) ha
    have hbx : b.pose x = m := by
      rw [hp2 x ?_, hx]
      rintro (h | h)
      · subst h; exact hf _ (.single hc)
      · exact hf x (Relation.TransGen.head hc h)
    obtain ⟨d, e', hs', h1, h2⟩ :=
      ih (fun z hz => hl z (by simp [hz])) b (hs.children.trans ha) hbx
    refine ⟨d, ?_, hs.trans hs', ?_, ?_⟩
    · unfold pushPose; rw [e]; exact e'
    · rintro z ⟨y, hy, hz⟩
      by_cases hcs : ∃ y ∈ cs, z = y ∨ Below w y z
      · exact h1 z hcs
      · rw [h2 z hcs]
        rcases List.mem_cons.1 hy with rfl | hy
        · rw [hp1 z hz, hx]
        · exact absurd ⟨y, hy, hz⟩ hcs
    · intro z hz
      rw [h2 z (fun ⟨y, hy, h⟩ => hz ⟨y, by simp [hy], h⟩)]
      exact hp2 z (fun h => hz ⟨c, by simp, h⟩)

theorem updatePose_spec {w : World P} (hf : Forest w) {x : Nat}
    (hx : Acc (fun c p => Child w p c) x) :
    ∃ f, ∀ k, f ≤ k → ∀ (a : World P) (m : P), a.children = w.children →
      ∃ b, updatePose k a x m = some b ∧ Same a b ∧ Pushed w x m a b := by
  induction hx with
  | intro x _ ih =>
    have hall : ∀ l : List Nat, (∀ y ∈ l, Child w x y) → ∃ f, ∀ k, f ≤ k → ∀ y ∈ l,
        ∀ (a : World P) (m : P), a.children = w.children →
          ∃ b, updatePose k a y m = some b ∧ Same a b ∧ Pushed w y m a b := by
      intro l
      induction l with
      | nil => intro _; exact ⟨0, fun k _ y hy => by simp at hy⟩
      | cons y ys ihl =>
        intro hl
        obtain ⟨f1, h1⟩ := ihl (fun z hz => hl z (by simp [hz]))
        obtain ⟨f2, h2⟩ := ih y (hl y (by simp))
        refine ⟨max f1 f2, fun k hk z hz => ?_⟩
        rcases List.mem_cons.1 hz with rfl | hz
        · exact h2 k (by omega)
        · exact h1 k (by omega) z hz
    obtain ⟨f, hfu⟩ := hall (w.children x) (fun y hy => hy)
    refine ⟨f + 1, fun k hk a m ha => ?_⟩
    obtain ⟨k, rfl⟩ : ∃ j, k = j + 1 := ⟨k - 1, by omega⟩
    rw [updatePose]
    obtain ⟨b, e, hs, h1, h2⟩ := pushPose_spec hf m (updatePose k)
      (fun c hc a g ha => hfu k (by omega) c hc a g ha) (w.children x) (fun _ h => h)
      { a with pose := put a.pose x m } ha (put_self _ _ _)
    refine ⟨b, by rw [congrFun ha x]; exact e, ⟨hs.alive, hs.name, hs.children, hs.parent⟩, ?_, ?_⟩
    · intro z hz
      by_cases hb : Below w x z
      · obtain ⟨c, hc, hcz⟩ := (below_iff w x z).1 hb
        exact h1 z ⟨c, hc, hcz.imp (fun h => h.symm) id⟩
      · rcases hz with rfl | hz
        · rw [h2 z]
          · exact put_self _ _ _
          · rintro ⟨c, hc, h⟩
            exact hb ((below_iff w z z).2 ⟨c, hc, h.imp (fun h => h.symm) id⟩)
        · exact absurd hz hb
    · intro z hz
      rw [h2 z]
      · exact put_ne _ _ (fun h => hz (Or.inl h))
      · rintro ⟨c, hc, h⟩
        exact hz (Or.inr ((below_iff w x z).2 ⟨c, hc, h.imp (fun h => h.symm) id⟩))

/-- On or above a cycle, pushing a pose down never ends. -/
theorem updatePose_cycle {w : World P} :
    ∀ f x, (∃ y, Below w y y ∧ (x = y ∨ Below w x y)) → ∀ (a : World P) (m : P),
      a.children = w.children → updatePose f a x m = none := by
  intro f
  induction f with
  | zero => intro x _ a m _; rfl
  | succ f ih =>
    intro x hx a m ha
    rw [updatePose]
    obtain ⟨y, hy, hxy⟩ := hx
    have hxy' : Below w x y := by
      rcases hxy with rfl | h
      · exact hy
      · exact h
    obtain ⟨c, hc, hcy⟩ := (below_iff w x y).1 hxy'
    have hl : ∀ (l : List Nat) (a : World P), c ∈ l → a.children = w.children →
        pushPose (updatePose f) x l a = none := by
      intro l
      induction l with
      | nil => intro a h; simp at h
      | cons d ds ihl =>
        intro a h ha
        unfold pushPose
        by_cases e : c = d
        · subst e
          rw [ih c ⟨y, hy, hcy⟩ a _ ha]
        · cases e' : updatePose f a d (a.pose x) with
          | none => rfl
          | some v =>
            have := (updatePose_same _ _ _ _ _ e').children
            simp only
            refine ihl v ?_ (this.trans ha)
            rcases List.mem_cons.1 h with h | h
            · exact absurd h e
            · exact h
    exact hl _ _ (by rw [ha]; exact hc) ha

theorem attachIgnored_child {w : World P} {p c : Nat} (h : c ∈ w.children p) :
    attachIgnored w p c = some w := if_pos ((hasChild_iff w p c).2 h)

theorem initAll_spec {w : World P} {x : Nat}
    (rec : World P → Nat → Option (World P))
    (hrec : ∀ c, Child w x c → ∀ a, Same w a → ∃ b, rec a c = some b ∧ Same w b ∧
      ∀ z, ¬ (z = c ∨ Below w c z) → b.pose z = a.pose z) :
    ∀ (l : List Nat), (∀ c ∈ l, Child w x c) → ∀ a : World P, Same w a →
      ∃ b, initAll rec l a = some b ∧ Same w b ∧
        ∀ z, ¬ (∃ c ∈ l, z = c ∨ Below w c z) → b.pose z = a.pose z := by
  intro l
  induction l with
  | nil => intro _ a ha; exact ⟨a, rfl, ha, fun _ _ => rfl⟩
  | cons c cs ih =>
    intro hl a ha
    obtain ⟨b, e, hs, hp⟩ := hrec c (hl c (by simp)) a ha
    obtain ⟨d, e', hs', hp'⟩ := ih (fun z hz => hl z (by simp [hz])) b hs
    refine ⟨d, ?_, hs', ?_⟩
    · unfold initAll; rw [e]; exact e'
    · intro z hz
      rw [hp' z (fun ⟨y, hy, h⟩ => hz ⟨y, by simp [hy], h⟩)]
      exact hp z (fun h => hz ⟨c, by simp, h⟩)

/-- Initializing an object with the parent it has. -/
theorem initObj_spec (one : P) {w : World P} (hi : Inv w) (hf : Forest w) {x : Nat}
    (hx : Acc (fun c p => Child w p c) x) :
    ∃ f, ∀ k, f ≤ k → ∀ a : World P, Same w a →
      ∃ b, initObj one k a x (w.parent x) [] = some b ∧ Same w b ∧
        Pushed w x (basePose one a (w.parent x)) a b := by
  induction hx with
  | intro x hacc ih =>
    have hall : ∀ l : List Nat, (∀ y ∈ l, Child w x y) → ∃ f, ∀ k, f ≤ k → ∀ y ∈ l,
        ∀ (a : World P), Same w a → ∃ b, initObj one k a y (w.parent y) [] = some b ∧ Same w b ∧
          ∀ z, ¬ (z = y ∨ Below w y z) → b.pose z = a.pose z := by
      intro l
      induction l with
      | nil => intro _; exact ⟨0, fun k _ y hy => by simp at hy⟩
      | cons y ys ihl =>
        intro hl
        obtain ⟨f1, h1⟩ := ihl (fun z hz => hl z (by simp [hz]))
        obtain ⟨f2, h2⟩ := ih y (hl y (by simp))
        refine ⟨max f1 f2, fun k hk z hz a ha => ?_⟩
        rcases List.mem_cons.1 hz with rfl | hz
        · obtain ⟨b, hb, hs, hp⟩ := h2 k (by omega) a ha
          exact ⟨b, hb, hs, hp.2⟩
        · exact h1 k (by omega) z hz a ha
    obtain ⟨f1, hf1⟩ := hall (w.children x) (fun y hy => hy)
    obtain ⟨f2, hf2⟩ := updatePose_spec hf (Acc.intro x hacc)
    refine ⟨max f1 f2 + 1, fun k hk a ha => ?_⟩
    obtain ⟨k, rfl⟩ : ∃ j, k = j + 1 := ⟨k - 1, by omega⟩
    -- the links are found as they are
    have h1 : attachTo a (w.parent x) x = some a := by
      cases e : w.parent x with
      | none => rfl
      | some p =>
        have := hi.up p x e
        rw [← ha.children] at this
        exact attachIgnored_child this
    have h2 : put a.parent x (w.parent x) = a.parent := by
      funext z
      by_cases e : z = x
      · subst e; rw [put_self, ha.parent]
      · rw [put_ne _ _ e]
    obtain ⟨b, e, hs, hp⟩ := initAll_spec (w := w) (x := x)
      (fun w' c => initObj one k w' c (some x) [])
      (fun c hc a' ha' => by
        have := hf1 k (by omega) c hc a' ha'
        rw [hi.down x c hc] at this
        exact this)
      (w.children x) (fun _ h => h) a ha
    obtain ⟨d, e', hs', hp'⟩ := hf2 k (by omega) b
      (basePose one b (w.parent x)) hs.children
    refine ⟨d, ?_, hs.trans hs', ?_⟩
    · unfold initObj
      rw [h1]
      simp only [attachAll]
      rw [h2]
      change (match initAll (fun w' c => initObj one k w' c (some x) []) (a.children x) a with
        | none => none
        | some w4 => updatePose k w4 x (basePose one w4 (w.parent x))) = some d
      rw [congrFun ha.children x, e]
      exact e'
    · have hm : (basePose one b (w.parent x)) =
          (basePose one a (w.parent x)) := by
        cases e : w.parent x with
        | none => rfl
        | some p =>
          apply hp
          rintro ⟨c, hc, h⟩
          have hpx : Child w p x := hi.up p x e
          rcases h with rfl | h
          · exact hf x (Relation.TransGen.head hc (.single hpx))
          · exact hf p (Relation.TransGen.head hpx (Relation.TransGen.head hc h))
      rw [← hm]
      refine ⟨hp'.1, fun z hz => ?_⟩
      rw [hp'.2 z hz]
      apply hp
      rintro ⟨c, hc, h⟩
      exact hz (Or.inr ((below_iff w x z).2 ⟨c, hc, h.imp (fun h => h.symm) id⟩))

end Simox.Attach
