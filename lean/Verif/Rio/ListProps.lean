import Verif.Rio.QuantityProps

/-!
# C136: lists of numbers and nodes, and the children of a joint
-/

namespace Simox.Rio

open Rot Matrix

variable {F : String → Option ℝ}

theorem mapM_eq_some {α β : Type} (f : α → Option β) (l : List α) (r : List β) : l.mapM f = some r ↔ List.Forall₂ (fun a b => f a = some b) l r := by
  induction l generalizing r with
  | nil => simp [eq_comm]
  | cons a l ih =>
      rw [List.mapM_cons]
      cases ha : f a with
      | none =>
          simp only [Option.bind_eq_bind, Option.bind_none, reduceCtorEq, false_iff]
          intro h
          cases h with
          | cons h1 _ => rw [ha] at h1; simp at h1
      | some b =>
          cases hl : l.mapM f with
          | none =>
              simp only [Option.bind_eq_bind, Option.bind_some, Option.bind_none, reduceCtorEq, false_iff]
              intro h
              cases h with
              | cons _ h2 => have := (ih _).2 h2; rw [hl] at this; simp at this
          | some bs =>
              simp only [Option.bind_eq_bind, Option.bind_some]
              change some (b :: bs) = some r ↔ _
              rw [Option.some.injEq]
              constructor
              · rintro rfl; exact .cons ha ((ih _).1 hl)
              · intro h
                cases h with
                | cons h1 h2 =>
                    rw [ha] at h1
                    have := (ih _).2 h2
                    rw [hl] at this
                    simp only [Option.some.injEq] at h1 this
                    rw [h1, this]

theorem floatLoop_eq (dim : ℕ) (l : List Xml) (a r : List ℝ) (ha : a.length ≤ dim) : floatLoop F dim l a = some r ↔
    a.length + l.length = dim ∧ ∃ b, r = a ++ b ∧ List.Forall₂ (fun c x => lower c.name = "c" ∧ getFloat F c "value" = some x) l b := by
  induction l generalizing a with
  | nil =>
      unfold floatLoop
      by_cases h : a.length < dim
      · rw [if_pos h]; simp; omega
      · rw [if_neg h]; simp [eq_comm]; omega
  | cons n l ih =>
      unfold floatLoop
      by_cases hc : lower n.name = "c"
      · rw [if_pos (by simpa using hc)]
        by_cases hd : a.length ≥ dim
        · rw [if_pos hd]; simp; omega
        · rw [if_neg hd]
          cases hv : getFloat F n "value" with
          | none =>
              simp only [reduceCtorEq, false_iff, not_and, not_exists]
              intro _ b _ h
              cases h with
              | cons h1 _ => rw [hv] at h1; simp at h1
          | some v =>
              simp only
              rw [ih _ (by simp; omega)]
              simp only [List.length_append, List.length_cons, List.length_nil]
              constructor
              · rintro ⟨h1, b, rfl, h2⟩
                exact ⟨by omega, v :: b, by simp, .cons ⟨hc, hv⟩ h2⟩
              · rintro ⟨h1, b, rfl, h2⟩
                cases h2 with
                | cons h3 h4 =>
                    rw [hv] at h3
                    simp only [Option.some.injEq] at h3
                    exact ⟨by omega, _, by rw [h3.2]; simp, h4⟩
      · rw [if_neg (by simpa using hc)]
        simp only [reduceCtorEq, false_iff, not_and, not_exists]
        intro _ b _ h
        cases h with
        | cons h1 _ => exact hc h1.1

/-- **C136** (numbers): a point of a trajectory is read exactly if it has as many entries as there are dimensions, all of them `<c>` with a number, and no other
element; the numbers are those of the entries, in their order. -/
theorem C136_numbers (n : Xml) (dim : ℤ) :
    (dim ≤ 0 → processFloats F n dim = some none) ∧
    ∀ r, 0 < dim → (processFloats F n dim = some (some r) ↔
      (n.children.length : ℤ) = dim ∧ List.Forall₂ (fun c x => lower c.name = "c" ∧ getFloat F c "value" = some x) n.children r) := by
  refine ⟨fun h => by unfold processFloats; rw [if_pos h], fun r h => ?_⟩
  unfold processFloats
  rw [if_neg (by omega), Option.map_eq_some_iff]
  simp only [Option.some.injEq, exists_eq_right]
  rw [floatLoop_eq _ _ _ _ (by simp)]
  simp only [List.length_nil, List.nil_append, exists_eq_left', zero_add]
  constructor
  · rintro ⟨h1, h2⟩; exact ⟨by omega, h2⟩
  · rintro ⟨h1, h2⟩; exact ⟨by omega, h2⟩

/-- **C136** (nodes): a list of nodes is read exactly if all its elements are `<Node>` with no attribute but a name, which the robot knows; the result has the names
in the order of the document. -/
theorem C136_nodes (known : String → Bool) (n : Xml) (r : List String) :
    processNodeList known n = some r ↔ (processName n true).isSome = true ∧
      List.Forall₂ (fun c name => lower c.name = "node" ∧ name ≠ "" ∧ known name = true ∧ (∀ p ∈ c.attrs, lower p.1 = "name") ∧ c.attrs.map Prod.snd = [name]) n.children r := by
  have key : ∀ c name, listEntry known c = some name ↔ lower c.name = "node" ∧ name ≠ "" ∧ known name = true ∧ (∀ p ∈ c.attrs, lower p.1 = "name") ∧ c.attrs.map Prod.snd = [name] := by
    intro c name
    have hs := C132_single some "" "name" c false
    unfold listEntry
    by_cases hc : lower c.name = "node"
    · rw [if_pos (by simpa using hc)]
      unfold processName
      have hf : (∀ p ∈ c.attrs, lower p.1 = "name") → (c.attrs.filter fun p => lower p.1 == "name") = c.attrs := by
        intro h
        rw [List.filter_eq_self]
        intro p hp
        simpa using h p hp
      constructor
      · intro h
        cases hp : processAttr some "" "name" c false with
        | none => rw [hp] at h; simp at h
        | some v =>
            rw [hp] at h
            dsimp only at h
            by_cases h0 : v = ""
            · rw [if_pos h0] at h; simp at h
            · rw [if_neg h0] at h
              by_cases hk : known v = true
              · rw [if_pos hk] at h
                simp only [Option.some.injEq] at h
                subst h
                obtain ⟨h1, h2⟩ := (hs v).1 hp
                simp only [Bool.false_eq_true, false_or] at h1
                rw [hf h1] at h2
                refine ⟨hc, h0, hk, h1, ?_⟩
                rcases h2 with ⟨t, h2, h3⟩ | ⟨-, h3⟩
                · simp only [Option.some.injEq] at h3; rw [h2, h3]
                · exact absurd h3 h0
              · rw [if_neg hk] at h; simp at h
      · rintro ⟨-, h0, hk, h1, h2⟩
        rw [(hs name).2 ⟨.inr h1, .inl ⟨name, by rw [hf h1, h2], rfl⟩⟩]
        simp [h0, hk]
    · rw [if_neg (by simpa using hc)]
      simp [hc]
  unfold processNodeList
  cases hp : processName n true with
  | none => simp
  | some _ =>
      simp only [Option.isSome_some, true_and]
      rw [mapM_eq_some]
      simp only [key]

/-- **C136** (configurations): a configuration is read exactly if it has a name and all its elements are values of joints; they are kept in their order. -/
theorem C136_configuration (n : Xml) (name : String) (r : List (String × ℝ)) :
    processConfig F n = some (name, r) ↔ processName n true = some name ∧ name ≠ "" ∧ List.Forall₂ (fun c e => processConfigEntry F c = some e) n.children r := by
  unfold processConfig
  cases hp : processName n true with
  | none => simp
  | some v =>
      simp only [Option.some.injEq]
      by_cases h0 : v = ""
      · rw [if_pos h0]
        simp only [reduceCtorEq, false_iff]
        rintro ⟨rfl, h, -⟩
        exact h h0
      · rw [if_neg h0, Option.map_eq_some_iff]
        simp only [Prod.mk.injEq, ← mapM_eq_some]
        constructor
        · rintro ⟨l, h1, rfl, rfl⟩; exact ⟨rfl, h0, h1⟩
        · rintro ⟨rfl, -, h⟩; exact ⟨r, h, rfl, rfl⟩

/-! ## The children of a joint -/

/-- The children with a name, in any case. -/
def named (l : List Xml) (s : String) : List Xml := l.filter fun c => lower c.name == s

/-- The elements a joint may have. -/
def jointTags : List String := ["limits", "axis", "translationdirection", "maxvelocity", "maxacceleration", "maxtorque", "propagatejointvalue", "scalevisualization"]

/-- What one child of a joint with a name does. -/
def StepOf (F : String → Option ℝ) (d : JointDef) (n : Xml) (s : String) (d' : JointDef) : Prop :=
  (s = "limits" ∧ d.limitsSeen = false ∧ ∃ l, processLimits F n d.limits = some l ∧ d' = { d with limits := l, limitsSeen := true }) ∨
  (s = "axis" ∧ d.axis = none ∧ d' = { d with axis := some n }) ∨
  (s = "translationdirection" ∧ d.translation = none ∧ d' = { d with translation := some n }) ∨
  (s = "maxvelocity" ∧ ∃ v, maxVelocity F n = some v ∧ d' = { d with maxVelocity := v }) ∨
  (s = "maxacceleration" ∧ ∃ v, maxAcceleration F n = some v ∧ d' = { d with maxAcceleration := v }) ∨
  (s = "maxtorque" ∧ ∃ v, maxTorque F n = some v ∧ d' = { d with maxTorque := v }) ∨
  (s = "propagatejointvalue" ∧ ∃ p, readPropagate F n = some p ∧ d' = { d with propagate := d.propagate ++ [p] }) ∨
  (s = "scalevisualization" ∧ ∃ v, vec3 F n = some v ∧ d' = { d with scale := some v })

theorem jointStep_eq {d d' : JointDef} {n : Xml} (h : jointStep F d n = some d') : StepOf F d n (lower n.name) d' := by
  unfold jointStep at h
  unfold StepOf
  generalize lower n.name = s at *
  by_cases c : s = "limits"
  · rw [if_pos (by simpa using c)] at h
    cases hs : d.limitsSeen with
    | true => rw [hs] at h; simp at h
    | false =>
        rw [hs] at h
        simp only [Bool.false_eq_true, if_false, Option.map_eq_some_iff] at h
        obtain ⟨l, h1, h2⟩ := h
        exact .inl ⟨c, rfl, l, h1, h2.symm⟩
  rw [if_neg (by simpa using c)] at h
  refine .inr ?_
  by_cases c : s = "axis"
  · rw [if_pos (by simpa using c)] at h
    cases hs : d.axis with
    | some a => rw [hs] at h; simp at h
    | none =>
        rw [hs] at h
        simp only [Option.isSome_none, Bool.false_eq_true, if_false, Option.some.injEq] at h
        exact .inl ⟨c, rfl, h.symm⟩
  rw [if_neg (by simpa using c)] at h
  refine .inr ?_
  by_cases c : s = "translationdirection"
  · rw [if_pos (by simpa using c)] at h
    cases hs : d.translation with
    | some a => rw [hs] at h; simp at h
    | none =>
        rw [hs] at h
        simp only [Option.isSome_none, Bool.false_eq_true, if_false, Option.some.injEq] at h
        exact .inl ⟨c, rfl, h.symm⟩
  rw [if_neg (by simpa using c)] at h
  refine .inr ?_
  by_cases c : s = "maxvelocity"
  · rw [if_pos (by simpa using c), Option.map_eq_some_iff] at h
    obtain ⟨v, h1, h2⟩ := h
    exact .inl ⟨c, v, h1, h2.symm⟩
  rw [if_neg (by simpa using c)] at h
  refine .inr ?_
  by_cases c : s = "maxacceleration"
  · rw [if_pos (by simpa using c), Option.map_eq_some_iff] at h
    obtain ⟨v, h1, h2⟩ := h
    exact .inl ⟨c, v, h1, h2.symm⟩
  rw [if_neg (by simpa using c)] at h
  refine .inr ?_
  by_cases c : s = "maxtorque"
  · rw [if_pos (by simpa using c), Option.map_eq_some_iff] at h
    obtain ⟨v, h1, h2⟩ := h
    exact .inl ⟨c, v, h1, h2.symm⟩
  rw [if_neg (by simpa using c)] at h
  refine .inr ?_
  by_cases c : s = "propagatejointvalue"
  · rw [if_pos (by simpa using c), Option.map_eq_some_iff] at h
    obtain ⟨v, h1, h2⟩ := h
    exact .inl ⟨c, v, h1, h2.symm⟩
  rw [if_neg (by simpa using c)] at h
  refine .inr ?_
  by_cases c : s = "scalevisualization"
  · rw [if_pos (by simpa using c), Option.map_eq_some_iff] at h
    obtain ⟨v, h1, h2⟩ := h
    exact ⟨c, v, h1, h2.symm⟩
  rw [if_neg (by simpa using c)] at h
  simp at h

theorem named_cons_pos {c : Xml} {l : List Xml} {s : String} (h : lower c.name = s) : named (c :: l) s = c :: named l s :=
  List.filter_cons_of_pos (by simpa using h)

theorem named_cons_neg {c : Xml} {l : List Xml} {s : String} (h : lower c.name ≠ s) : named (c :: l) s = named l s :=
  List.filter_cons_of_neg (by simpa using h)

/-- The value of the last of some elements, `standard` without one; all of them can be read. -/
def LastRead {α : Type} (read : Xml → Option α) (l : List Xml) (standard v : α) : Prop :=
  ∃ vs, List.Forall₂ (fun c x => read c = some x) l vs ∧ v = vs.getLastD standard

theorem lastRead_cons {α : Type} {read : Xml → Option α} {c : Xml} {l : List Xml} {s v x : α} (h : read c = some x) (hl : LastRead read l x v) : LastRead read (c :: l) s v := by
  obtain ⟨vs, h1, rfl⟩ := hl
  refine ⟨x :: vs, .cons h h1, ?_⟩
  cases vs <;> rfl

theorem jointLoop_spec {l : List Xml} {d r : JointDef} (h : jointLoop F l d = some r) :
    (∀ c ∈ l, lower c.name ∈ jointTags) ∧
    ((named l "limits" = [] ∧ r.limits = d.limits) ∨ (d.limitsSeen = false ∧ ∃ c, named l "limits" = [c] ∧ processLimits F c d.limits = some r.limits)) ∧
    ((named l "axis" = [] ∧ r.axis = d.axis) ∨ (d.axis = none ∧ ∃ c, named l "axis" = [c] ∧ r.axis = some c)) ∧
    ((named l "translationdirection" = [] ∧ r.translation = d.translation) ∨ (d.translation = none ∧ ∃ c, named l "translationdirection" = [c] ∧ r.translation = some c)) ∧
    LastRead (maxVelocity F) (named l "maxvelocity") d.maxVelocity r.maxVelocity ∧
    LastRead (maxAcceleration F) (named l "maxacceleration") d.maxAcceleration r.maxAcceleration ∧
    LastRead (maxTorque F) (named l "maxtorque") d.maxTorque r.maxTorque ∧
    (∃ ps, List.Forall₂ (fun c p => readPropagate F c = some p) (named l "propagatejointvalue") ps ∧ r.propagate = d.propagate ++ ps) ∧
    LastRead (fun c => (vec3 F c).map some) (named l "scalevisualization") d.scale r.scale := by
  induction l generalizing d with
  | nil =>
      unfold jointLoop at h
      simp only [Option.some.injEq] at h
      subst h
      exact ⟨by simp, .inl ⟨rfl, rfl⟩, .inl ⟨rfl, rfl⟩, .inl ⟨rfl, rfl⟩, ⟨[], .nil, rfl⟩, ⟨[], .nil, rfl⟩, ⟨[], .nil, rfl⟩, ⟨[], .nil, by simp⟩, ⟨[], .nil, rfl⟩⟩
  | cons c l ih =>
      unfold jointLoop at h
      cases hs : jointStep F d c with
      | none => rw [hs] at h; simp at h
      | some d' =>
      rw [hs] at h
      obtain ⟨i0, i1, i2, i3, i4, i5, i6, i7, i8⟩ := ih h
      have hall : ∀ (t : String), t ∈ jointTags → lower c.name = t → ∀ c' ∈ c :: l, lower c'.name ∈ jointTags := by
        intro t ht e c' hc'
        rcases List.mem_cons.1 hc' with rfl | hc'
        · rw [e]; exact ht
        · exact i0 c' hc'
      rcases jointStep_eq hs with ⟨e, e1, v, hv, rfl⟩ | ⟨e, e1, rfl⟩ | ⟨e, e1, rfl⟩ | ⟨e, v, hv, rfl⟩ | ⟨e, v, hv, rfl⟩ | ⟨e, v, hv, rfl⟩ | ⟨e, v, hv, rfl⟩ | ⟨e, v, hv, rfl⟩ <;>
        dsimp only at i1 i2 i3 i4 i5 i6 i7 i8
      · refine ⟨hall _ (by decide) e, ?_, ?_⟩
        · rw [named_cons_pos e]
          rcases i1 with ⟨a, b⟩ | ⟨a, -⟩
          · exact .inr ⟨e1, c, by rw [a], by rw [hv, b]⟩
          · simp at a
        · rw [named_cons_neg (by rw [e]; decide), named_cons_neg (by rw [e]; decide), named_cons_neg (by rw [e]; decide), named_cons_neg (by rw [e]; decide),
            named_cons_neg (by rw [e]; decide), named_cons_neg (by rw [e]; decide), named_cons_neg (by rw [e]; decide)]
          exact ⟨i2, i3, i4, i5, i6, i7, i8⟩
      · refine ⟨hall _ (by decide) e, ?_⟩
        rw [named_cons_pos e, named_cons_neg (by rw [e]; decide), named_cons_neg (by rw [e]; decide), named_cons_neg (by rw [e]; decide), named_cons_neg (by rw [e]; decide),
            named_cons_neg (by rw [e]; decide), named_cons_neg (by rw [e]; decide), named_cons_neg (by rw [e]; decide)]
        refine ⟨i1, ?_, i3, i4, i5, i6, i7, i8⟩
        rcases i2 with ⟨a, b⟩ | ⟨a, -⟩
        · exact .inr ⟨e1, c, by rw [a], b⟩
        · simp at a
      · refine ⟨hall _ (by decide) e, ?_⟩
        rw [named_cons_pos e, named_cons_neg (by rw [e]; decide), named_cons_neg (by rw [e]; decide), named_cons_neg (by rw [e]; decide), named_cons_neg (by rw [e]; decide),
            named_cons_neg (by rw [e]; decide), named_cons_neg (by rw [e]; decide), named_cons_neg (by rw [e]; decide)]
        refine ⟨i1, i2, ?_, i4, i5, i6, i7, i8⟩
        rcases i3 with ⟨a, b⟩ | ⟨a, -⟩
        · exact .inr ⟨e1, c, by rw [a], b⟩
        · simp at a
      · refine ⟨hall _ (by decide) e, ?_⟩
        rw [named_cons_pos e, named_cons_neg (by rw [e]; decide), named_cons_neg (by rw [e]; decide), named_cons_neg (by rw [e]; decide), named_cons_neg (by rw [e]; decide),
            named_cons_neg (by rw [e]; decide), named_cons_neg (by rw [e]; decide), named_cons_neg (by rw [e]; decide)]
        exact ⟨i1, i2, i3, lastRead_cons hv i4, i5, i6, i7, i8⟩
      · refine ⟨hall _ (by decide) e, ?_⟩
        rw [named_cons_pos e, named_cons_neg (by rw [e]; decide), named_cons_neg (by rw [e]; decide), named_cons_neg (by rw [e]; decide), named_cons_neg (by rw [e]; decide),
            named_cons_neg (by rw [e]; decide), named_cons_neg (by rw [e]; decide), named_cons_neg (by rw [e]; decide)]
        exact ⟨i1, i2, i3, i4, lastRead_cons hv i5, i6, i7, i8⟩
      · refine ⟨hall _ (by decide) e, ?_⟩
        rw [named_cons_pos e, named_cons_neg (by rw [e]; decide), named_cons_neg (by rw [e]; decide), named_cons_neg (by rw [e]; decide), named_cons_neg (by rw [e]; decide),
            named_cons_neg (by rw [e]; decide), named_cons_neg (by rw [e]; decide), named_cons_neg (by rw [e]; decide)]
        exact ⟨i1, i2, i3, i4, i5, lastRead_cons hv i6, i7, i8⟩
      · refine ⟨hall _ (by decide) e, ?_⟩
        rw [named_cons_pos e, named_cons_neg (by rw [e]; decide), named_cons_neg (by rw [e]; decide), named_cons_neg (by rw [e]; decide), named_cons_neg (by rw [e]; decide),
            named_cons_neg (by rw [e]; decide), named_cons_neg (by rw [e]; decide), named_cons_neg (by rw [e]; decide)]
        obtain ⟨ps, j1, j2⟩ := i7
        exact ⟨i1, i2, i3, i4, i5, i6, ⟨v :: ps, .cons hv j1, by rw [j2]; simp⟩, i8⟩
      · refine ⟨hall _ (by decide) e, ?_⟩
        rw [named_cons_pos e, named_cons_neg (by rw [e]; decide), named_cons_neg (by rw [e]; decide), named_cons_neg (by rw [e]; decide), named_cons_neg (by rw [e]; decide),
            named_cons_neg (by rw [e]; decide), named_cons_neg (by rw [e]; decide), named_cons_neg (by rw [e]; decide)]
        exact ⟨i1, i2, i3, i4, i5, i6, i7, lastRead_cons (by rw [hv]; rfl) i8⟩

/-- **C136** (joint): what is read of a joint. Only known elements are accepted, and at most one of limits, axis and direction. The limits are those of `<Limits>`, a
full turn without. The velocity, acceleration and torque are those of the last such element, -1 without one. The joints that follow are those of the elements, in their
order. -/
theorem C136_joint {n : Xml} {j : Joint} (h : processJoint F n = some j) :
    (∀ c ∈ n.children, lower c.name ∈ jointTags) ∧
    ((named n.children "limits" = [] ∧ j.lo = -Real.pi ∧ j.hi = Real.pi ∧ j.limitless = false) ∨
      ∃ c, named n.children "limits" = [c] ∧ processLimits F c Limits.standard = some ⟨j.lo, j.hi, j.limitless⟩) ∧
    LastRead (maxVelocity F) (named n.children "maxvelocity") (-1) j.maxVelocity ∧
    LastRead (maxAcceleration F) (named n.children "maxacceleration") (-1) j.maxAcceleration ∧
    LastRead (maxTorque F) (named n.children "maxtorque") (-1) j.maxTorque ∧
    List.Forall₂ (fun c p => readPropagate F c = some p) (named n.children "propagatejointvalue") j.propagate ∧
    getOptFloat F n "offset" 0 = some j.offset := by
  obtain ⟨o, x, d, a, t, sc, ho, -, hd, rfl, -⟩ := processJoint_eq h
  obtain ⟨i0, i1, -, -, i4, i5, i6, ⟨ps, p1, p2⟩, -⟩ := jointLoop_spec hd
  refine ⟨i0, ?_, i4, i5, i6, ?_, ho⟩
  · rcases i1 with ⟨e1, e2⟩ | ⟨-, c, e1, e2⟩
    · refine .inl ⟨e1, ?_, ?_, ?_⟩ <;> simp [makeJoint, e2, Limits.standard]
    · exact .inr ⟨c, e1, e2⟩
  · change List.Forall₂ _ _ d.propagate
    rw [p2]
    simpa using p1

/-- **C136** (types): a joint is fixed, revolute or prismatic, whatever the case of the text, fixed if no type is given. A revolute joint turns about the axis that is given,
the z axis otherwise; a prismatic joint moves in the direction that is given, and is refused without one. -/
theorem C136_types {n : Xml} {j : Joint} (h : processJoint F n = some j) :
    j.type = ((n.firstAttr "type").map lower).getD "fixed" ∧
    ((j.type = "revolute" ∧ j.translation = 0 ∧ ((named n.children "axis" = [] ∧ j.axis = ![0, 0, 1]) ∨ ∃ c, named n.children "axis" = [c] ∧ vec3 F c = some j.axis)) ∨
     (j.type = "prismatic" ∧ j.axis = 0 ∧ (∃ c, named n.children "translationdirection" = [c] ∧ vec3 F c = some j.translation) ∧ j.scale ≠ some 0 ∧
        LastRead (fun c => (vec3 F c).map some) (named n.children "scalevisualization") none j.scale) ∨
     (j.type = "fixed" ∧ j.axis = 0 ∧ j.translation = 0)) := by
  obtain ⟨o, x, d, a, t, sc, ho, -, hd, rfl, hc⟩ := processJoint_eq h
  obtain ⟨-, -, i2, i3, -, -, -, -, i8⟩ := jointLoop_spec hd
  have ht : jointType n = ((n.firstAttr "type").map lower).getD "fixed" := by
    unfold jointType; cases n.firstAttr "type" <;> rfl
  refine ⟨ht, ?_⟩
  rcases hc with ⟨e, e1, e2, -⟩ | ⟨e, e1, e2, e3, e4⟩ | ⟨e, e1, e2, -⟩
  · refine .inl ⟨e, e2, ?_⟩
    unfold jointAxis at e1
    rcases i2 with ⟨n1, n2⟩ | ⟨-, c, n1, n2⟩
    · rw [n2] at e1
      simp only [Option.some.injEq] at e1
      exact .inl ⟨n1, e1.symm⟩
    · rw [n2] at e1
      exact .inr ⟨c, n1, e1⟩
  · refine .inr (.inl ⟨e, e2, ?_, e4, by simpa [makeJoint, e3] using i8⟩)
    unfold jointTranslation at e1
    rcases i3 with ⟨n1, n2⟩ | ⟨-, c, n1, n2⟩
    · rw [n2] at e1; simp at e1
    · rw [n2] at e1
      exact ⟨c, n1, e1⟩
  · exact .inr (.inr ⟨e, e1, e2⟩)

example : ∃ (n : Xml) (j : Joint), processJoint exampleF n = some j ∧ j.type = "revolute" ∧ j.axis = ![0, 0, 1] ∧ j.maxTorque = 90 := by
  refine ⟨{ name := "Joint", attrs := [("Type", "Revolute")], children := [{ name := "MaxTorque", attrs := [("value", "90")] }] },
    makeJoint "revolute" 0 0 { maxTorque := 90 } ![0, 0, 1] 0 none, ?_, rfl, rfl, rfl⟩
  have h1 : maxTorque exampleF { name := "MaxTorque", attrs := [("value", "90")] } = some 90 := by
    apply C135_torque_partial (by simp [getFloat, Xml.firstAttr, same, lower, exampleF])
    exact .inr ⟨by simp [getAllUnits, Xml.allAttrs, same, lower], rfl⟩
  have h2 : lower "MaxTorque" = "maxtorque" := by decide
  have h3 : jointType { name := "Joint", attrs := [("Type", "Revolute")], children := [{ name := "MaxTorque", attrs := [("value", "90")] }] } = "revolute" := by decide
  unfold processJoint
  rw [h3]
  simp [getOptFloat, Xml.firstAttr, same, lower, jointLoop, jointStep, finishJoint, jointAxis, h1]

end Simox.Rio
