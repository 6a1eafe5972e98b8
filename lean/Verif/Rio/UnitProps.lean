import Verif.Rio.Spec

/-!
# C132: units of a robot definition
-/

namespace Simox.Rio

theorem kind_of {u : Units} {d : Dim} {s : ℝ} (h : IsUnit u d s) :
    (d = .angle → u.isAngle = true) ∧ (d = .length → u.isLength = true) ∧ (d = .weight → u.isWeight = true) ∧ (d = .time → u.isTime = true) := by
  simp only [IsUnit, unitTable, List.mem_cons, Prod.mk.injEq, List.not_mem_nil, or_false] at h
  rcases h with ⟨rfl, rfl, -⟩ | ⟨rfl, rfl, -⟩ | ⟨rfl, rfl, -⟩ | ⟨rfl, rfl, -⟩ | ⟨rfl, rfl, -⟩ | ⟨rfl, rfl, -⟩ | ⟨rfl, rfl, -⟩ | ⟨rfl, rfl, -⟩ | ⟨rfl, rfl, -⟩ |
    ⟨rfl, rfl, -⟩ | ⟨rfl, rfl, -⟩ | ⟨rfl, rfl, -⟩ | ⟨rfl, rfl, -⟩ | ⟨rfl, rfl, -⟩ | ⟨rfl, rfl, -⟩ | ⟨rfl, rfl, -⟩ | ⟨rfl, rfl, -⟩ | ⟨rfl, rfl, -⟩ |
    ⟨rfl, rfl, -⟩ | ⟨rfl, rfl, -⟩ | ⟨rfl, rfl, -⟩ <;> decide

/-- **C132** (recognised): a text is taken as a unit of a kind exactly if it is one of the names of such units. -/
theorem C132_recognised (u : Units) :
    (u.isAngle = true ↔ ∃ s, IsUnit u .angle s) ∧ (u.isLength = true ↔ ∃ s, IsUnit u .length s) ∧
    (u.isWeight = true ↔ ∃ s, IsUnit u .weight s) ∧ (u.isTime = true ↔ ∃ s, IsUnit u .time s) ∧
    (u.isValid = true ↔ ∃ d s, IsUnit u d s) := by
  have h1 : u.isAngle = true ↔ ∃ s, IsUnit u .angle s := by
    refine ⟨fun h => ?_, fun ⟨s, h⟩ => (kind_of h).1 rfl⟩
    simp only [Units.isAngle, Units.isRadian, Units.isDegree, Bool.or_eq_true, beq_iff_eq] at h
    rcases h with (rfl | rfl) | (rfl | rfl) <;> simp [IsUnit, unitTable]
  have h2 : u.isLength = true ↔ ∃ s, IsUnit u .length s := by
    refine ⟨fun h => ?_, fun ⟨s, h⟩ => (kind_of h).2.1 rfl⟩
    simp only [Units.isLength, Units.isMillimeter, Units.isMeter, Bool.or_eq_true, beq_iff_eq] at h
    rcases h with (rfl | rfl) | (rfl | rfl) <;> simp [IsUnit, unitTable]
  have h3 : u.isWeight = true ↔ ∃ s, IsUnit u .weight s := by
    refine ⟨fun h => ?_, fun ⟨s, h⟩ => (kind_of h).2.2.1 rfl⟩
    simp only [Units.isWeight, Units.isGram, Units.isKilogram, Units.isTon, Bool.or_eq_true, beq_iff_eq] at h
    rcases h with ((rfl | rfl) | (rfl | rfl)) | (rfl | rfl) <;> simp [IsUnit, unitTable]
  have h4 : u.isTime = true ↔ ∃ s, IsUnit u .time s := by
    refine ⟨fun h => ?_, fun ⟨s, h⟩ => (kind_of h).2.2.2 rfl⟩
    simp only [Units.isTime, Units.isSecond, Units.isMinute, Units.isHour, Bool.or_eq_true, beq_iff_eq] at h
    rcases h with (((rfl | rfl) | rfl) | (rfl | rfl)) | (rfl | rfl) <;> simp [IsUnit, unitTable]
  refine ⟨h1, h2, h3, h4, ?_⟩
  simp only [Units.isValid, Bool.or_eq_true, h1, h2, h3, h4]
  constructor
  · rintro (((h | h) | h) | h)
    · exact ⟨_, h⟩
    · exact ⟨_, h⟩
    · exact ⟨_, h⟩
    · exact ⟨_, h⟩
  · rintro ⟨d, h⟩
    cases d with
    | angle => exact .inl (.inl (.inr h))
    | length => exact .inl (.inl (.inl h))
    | weight => exact .inl (.inr h)
    | time => exact .inr h

/-- **C132** (kinds): no text is a unit of two kinds, or of two sizes. -/
theorem C132_unique {u : Units} {d d' : Dim} {s s' : ℝ} (h : IsUnit u d s) (h' : IsUnit u d' s') : d = d' ∧ s = s' := by
  simp only [IsUnit, unitTable, List.mem_cons, Prod.mk.injEq, List.not_mem_nil, or_false] at h h'
  rcases h with ⟨rfl, rfl, rfl⟩ | ⟨rfl, rfl, rfl⟩ | ⟨rfl, rfl, rfl⟩ | ⟨rfl, rfl, rfl⟩ | ⟨rfl, rfl, rfl⟩ | ⟨rfl, rfl, rfl⟩ | ⟨rfl, rfl, rfl⟩ | ⟨rfl, rfl, rfl⟩ | ⟨rfl, rfl, rfl⟩ |
    ⟨rfl, rfl, rfl⟩ | ⟨rfl, rfl, rfl⟩ | ⟨rfl, rfl, rfl⟩ | ⟨rfl, rfl, rfl⟩ | ⟨rfl, rfl, rfl⟩ | ⟨rfl, rfl, rfl⟩ | ⟨rfl, rfl, rfl⟩ | ⟨rfl, rfl, rfl⟩ | ⟨rfl, rfl, rfl⟩ |
    ⟨rfl, rfl, rfl⟩ | ⟨rfl, rfl, rfl⟩ | ⟨rfl, rfl, rfl⟩ <;> simp at h' <;> simp [h']

/-- A table row by row: all conversions of all units. -/
theorem convert_all {u : Units} {d : Dim} {s : ℝ} (h : IsUnit u d s) (x : ℝ) :
    (d = .angle → u.toRadian x = x * s ∧ u.toDegree x * (Real.pi / 180) = x * s) ∧
    (d = .length → u.toMeter x = x * s ∧ u.toMillimeter x * (1 / 1000) = x * s) ∧
    (d = .weight → u.toKilogram x = x * s ∧ u.toGram x * (1 / 1000) = x * s ∧ u.toTon x * 1000 = x * s) ∧
    (d = .time → u.toSecond x = x * s ∧ u.toMinute x * 60 = x * s ∧ u.toHour x * 3600 = x * s) := by
  have hp := Real.pi_ne_zero
  have e : x * 180 / Real.pi * (Real.pi / 180) = x := by field_simp
  simp only [IsUnit, unitTable, List.mem_cons, Prod.mk.injEq, List.not_mem_nil, or_false] at h
  rcases h with ⟨rfl, rfl, rfl⟩ | ⟨rfl, rfl, rfl⟩ | ⟨rfl, rfl, rfl⟩ | ⟨rfl, rfl, rfl⟩ | ⟨rfl, rfl, rfl⟩ | ⟨rfl, rfl, rfl⟩ | ⟨rfl, rfl, rfl⟩ | ⟨rfl, rfl, rfl⟩ | ⟨rfl, rfl, rfl⟩ |
    ⟨rfl, rfl, rfl⟩ | ⟨rfl, rfl, rfl⟩ | ⟨rfl, rfl, rfl⟩ | ⟨rfl, rfl, rfl⟩ | ⟨rfl, rfl, rfl⟩ | ⟨rfl, rfl, rfl⟩ | ⟨rfl, rfl, rfl⟩ | ⟨rfl, rfl, rfl⟩ | ⟨rfl, rfl, rfl⟩ |
    ⟨rfl, rfl, rfl⟩ | ⟨rfl, rfl, rfl⟩ | ⟨rfl, rfl, rfl⟩ <;>
  · simp [Units.toRadian, Units.toDegree, Units.toMeter, Units.toMillimeter, Units.toKilogram, Units.toGram, Units.toTon, Units.toSecond, Units.toMinute, Units.toHour,
      Units.isRadian, Units.isDegree, Units.isMeter, Units.isMillimeter, Units.isGram, Units.isKilogram, Units.isTon, Units.isSecond, Units.isMinute, Units.isHour]
    try norm_num
    try first | exact e | ring1

/-- **C132** (conversion): a number with a unit of the right kind is converted to the same quantity. The factors are those of
the table, for angles, lengths, weights and times, in all target units. -/
theorem C132_convert {u : Units} {s : ℝ} (x : ℝ) :
    (IsUnit u .angle s → u.toRadian x = x * s ∧ u.toDegree x * (Real.pi / 180) = x * s) ∧
    (IsUnit u .length s → u.toMeter x = x * s ∧ u.toMillimeter x * (1 / 1000) = x * s) ∧
    (IsUnit u .weight s → u.toKilogram x = x * s ∧ u.toGram x * (1 / 1000) = x * s ∧ u.toTon x * 1000 = x * s) ∧
    (IsUnit u .time s → u.toSecond x = x * s ∧ u.toMinute x * 60 = x * s ∧ u.toHour x * 3600 = x * s) :=
  ⟨fun h => (convert_all h x).1 rfl, fun h => (convert_all h x).2.1 rfl, fun h => (convert_all h x).2.2.1 rfl, fun h => (convert_all h x).2.2.2 rfl⟩

example : Units.toMinute "h" 2 * 60 = 2 * 3600 := ((C132_convert (u := "h") 2).2.2.2 (by simp [IsUnit, unitTable])).2.1

/-- **C132** (other kinds): a text that is no unit of the kind leaves the number as it is. -/
theorem C132_other (u : Units) (x : ℝ) :
    (u.isAngle = false → u.toRadian x = x ∧ u.toDegree x = x) ∧ (u.isLength = false → u.toMeter x = x ∧ u.toMillimeter x = x) ∧
    (u.isWeight = false → u.toKilogram x = x ∧ u.toGram x = x ∧ u.toTon x = x) ∧
    (u.isTime = false → u.toSecond x = x ∧ u.toMinute x = x ∧ u.toHour x = x) := by
  refine ⟨?_, ?_, ?_, ?_⟩
  · intro h; simp only [Units.isAngle, Bool.or_eq_false_iff] at h; simp [Units.toRadian, Units.toDegree, h]
  · intro h; simp only [Units.isLength, Bool.or_eq_false_iff] at h; simp [Units.toMeter, Units.toMillimeter, h]
  · intro h; simp only [Units.isWeight, Bool.or_eq_false_iff] at h; simp [Units.toKilogram, Units.toGram, Units.toTon, h]
  · intro h; simp only [Units.isTime, Bool.or_eq_false_iff] at h; simp [Units.toSecond, Units.toMinute, Units.toHour, h]

/-! ## Attributes -/

/-- The kind of units an attribute is asked for. -/
def Kind.dim : Kind → Option Dim
  | .ignore => none
  | .angle => some .angle
  | .length => some .length
  | .weight => some .weight
  | .time => some .time

/-- The names of the attributes that may give a unit of a kind, in the order in which they are looked for. -/
def unitNames : Kind → List String
  | .angle => ["unit", "units", "unitsAngle"]
  | .length => ["unit", "units", "unitsLength"]
  | .weight => ["unit", "units", "unitsWeight"]
  | .time => ["unit", "units", "unitsTime"]
  | .ignore => ["unit", "units", "unitsAngle", "unitsLength", "unitsWeight", "unitsTime"]

theorem unitsAttr_eq (n : Xml) (k : Kind) : unitsAttr n k = (unitNames k).findSome? n.firstAttr := by
  unfold unitsAttr unitNames
  cases k <;> simp only [List.findSome?_cons, List.findSome?_nil] <;> cases n.firstAttr "unit" <;> simp only <;> cases n.firstAttr "units" <;> simp only
  · cases n.firstAttr "unitsAngle" <;> simp only
    cases n.firstAttr "unitsLength" <;> simp only
    cases n.firstAttr "unitsWeight" <;> simp only
    cases n.firstAttr "unitsTime" <;> simp only
  · cases n.firstAttr "unitsAngle" <;> simp only
  · cases n.firstAttr "unitsLength" <;> simp only
  · cases n.firstAttr "unitsWeight" <;> simp only
  · cases n.firstAttr "unitsTime" <;> simp only

/-- **C132** (attribute): the unit of an element is the value, in lower case, of the first of its attributes for units; without one,
and if it is not a unit of the expected kind, there is an exception. -/
theorem C132_attribute (n : Xml) (k : Kind) (u : Units) :
    getUnits n k = some u ↔ ∃ v, (unitNames k).findSome? n.firstAttr = some v ∧ u = lower v ∧ ∀ d, k.dim = some d → ∃ s, IsUnit u d s := by
  rw [← unitsAttr_eq]
  unfold getUnits
  obtain ⟨r1, r2, r3, r4, -⟩ := C132_recognised u
  cases hv : unitsAttr n k with
  | none => simp
  | some v =>
      simp only [Option.some.injEq]
      have : u = lower v → (unitsOk k (lower v) = true ↔ ∀ d, k.dim = some d → ∃ s, IsUnit u d s) := by
        rintro rfl
        cases k <;> simp [unitsOk, Kind.dim, r1, r2, r3, r4]
      constructor
      · intro h
        by_cases hc : unitsOk k (lower v) = true
        · rw [if_pos hc, Option.some.injEq] at h
          exact ⟨v, rfl, h.symm, (this h.symm).1 hc⟩
        · rw [if_neg hc] at h; simp at h
      · rintro ⟨w, rfl, hu, hd⟩
        rw [if_pos ((this hu).2 hd), hu]

example : getUnits { name := "Limits", attrs := [("lo", "-1"), ("UnitsLength", "MM")] } .length = some "mm" :=
  (C132_attribute _ _ _).2 ⟨"MM", by decide, by decide, fun d hd => ⟨1 / 1000, by simp [Kind.dim] at hd; simp [← hd, IsUnit, unitTable]⟩⟩

theorem same_congr {b c : String} (h : lower b = lower c) (a : String) : same b a = same c a := by unfold same; rw [h]

theorem find_same {l l' : List (String × String)} (h : List.Forall₂ (fun p q : String × String => lower p.1 = lower q.1 ∧ lower p.2 = lower q.2) l l') (a : String) :
    (l.find? fun p => same p.1 a).map (fun p => lower p.2) = (l'.find? fun p => same p.1 a).map (fun p => lower p.2) := by
  induction h with
  | nil => rfl
  | cons h _ ih =>
      simp only [List.find?_cons, same_congr h.1 a]
      split
      · simp [h.2]
      · exact ih

theorem firstAttr_same {n n' : Xml} (h : SameAttrs n n') (a : String) : (n.firstAttr a).map lower = (n'.firstAttr a).map lower := by
  unfold Xml.firstAttr
  simp only [Option.map_map, Function.comp_def]
  exact find_same h a

/-- **C132** (case): upper and lower case, in names and values of the attributes, do not matter. -/
theorem C132_case {n n' : Xml} (h : SameAttrs n n') (k : Kind) : getUnits n k = getUnits n' k ∧ hasUnits n = hasUnits n' ∧ getAllUnits n = getAllUnits n' := by
  have hm : ∀ a, (n.firstAttr a).map lower = (n'.firstAttr a).map lower := firstAttr_same h
  refine ⟨?_, ?_, ?_⟩
  · have hl : ∀ l : List String, (l.findSome? n.firstAttr).map lower = (l.findSome? n'.firstAttr).map lower := by
      intro l
      induction l with
      | nil => rfl
      | cons a l ih =>
          simp only [List.findSome?_cons]
          have := hm a
          cases h1 : n.firstAttr a <;> cases h2 : n'.firstAttr a <;> rw [h1, h2] at this <;> simp_all
    have := hl (unitNames k)
    rw [← unitsAttr_eq, ← unitsAttr_eq] at this
    unfold getUnits
    cases h1 : unitsAttr n k <;> cases h2 : unitsAttr n' k <;> rw [h1, h2] at this <;> simp_all
  · have hs : ∀ a, (n.firstAttr a).isSome = (n'.firstAttr a).isSome := by
      intro a
      have := congrArg Option.isSome (hm a)
      simpa using this
    simp only [hasUnits, hs]
  · have ha : ∀ a, (n.allAttrs a).map lower = (n'.allAttrs a).map lower := by
      intro a
      unfold Xml.allAttrs
      unfold SameAttrs at h
      generalize n.attrs = l at h
      generalize n'.attrs = l' at h
      induction h with
      | nil => rfl
      | cons h _ ih =>
          simp only [List.filter_cons, same_congr h.1 a]
          split
          · simp only [List.map_cons, h.2, ih]
          · exact ih
    simp only [getAllUnits, List.map_append, ha]

/-- **C132** (presence): an element has an attribute for units exactly if some unit can be found in it. -/
theorem C132_has (n : Xml) : (hasUnits n = true ↔ (getUnits n .ignore).isSome = true) ∧ (hasUnits n = true ↔ getAllUnits n ≠ []) := by
  have key : ∀ a, (n.firstAttr a).isSome = true ↔ n.allAttrs a ≠ [] := by
    intro a
    simp [Xml.firstAttr, Xml.allAttrs, List.filter_eq_nil_iff]
  constructor
  · have : getUnits n .ignore = (unitsAttr n .ignore).map lower := by
      unfold getUnits
      cases unitsAttr n .ignore <;> simp [unitsOk]
    rw [this, unitsAttr_eq, hasUnits]
    simp only [Option.isSome_map, unitNames, List.findSome?_cons, List.findSome?_nil]
    generalize n.firstAttr "unit" = a1
    generalize n.firstAttr "units" = a2
    generalize n.firstAttr "unitsAngle" = a3
    generalize n.firstAttr "unitsLength" = a4
    generalize n.firstAttr "unitsWeight" = a5
    generalize n.firstAttr "unitsTime" = a6
    cases a1 <;> cases a2 <;> cases a3 <;> cases a4 <;> cases a5 <;> cases a6 <;> rfl
  · simp only [hasUnits, getAllUnits, Bool.or_eq_true, key, ne_eq, List.map_eq_nil_iff, List.append_eq_nil_iff]
    generalize (n.allAttrs "unit" = []) = p1
    generalize (n.allAttrs "units" = []) = p2
    generalize (n.allAttrs "unitsWeight" = []) = p3
    generalize (n.allAttrs "unitsLength" = []) = p4
    generalize (n.allAttrs "unitsAngle" = []) = p5
    generalize (n.allAttrs "unitsTime" = []) = p6
    by_cases p1 <;> by_cases p2 <;> by_cases p3 <;> by_cases p4 <;> by_cases p5 <;> by_cases p6 <;> simp [*]

/-! ## Single attributes -/

/-- **C132** (single attribute): reading a single attribute gives its value if it occurs once, the default if it does not occur, and an exception if
it occurs twice, if its text cannot be converted, or if there are other attributes that are not allowed. -/
theorem C132_single {α : Type} (C : String → Option α) (zero : α) (a : String) (n : Xml) (allowOther : Bool) (v : α) :
    processAttr C zero a n allowOther = some v ↔
      (allowOther = true ∨ ∀ p ∈ n.attrs, lower p.1 = a) ∧
      ((∃ t, (n.attrs.filter fun p => lower p.1 == a).map Prod.snd = [t] ∧ C t = some v) ∨ ((∀ p ∈ n.attrs, lower p.1 ≠ a) ∧ v = zero)) := by
  have key : ∀ (l : List (String × String)) (f r : Option α), processLoop C a allowOther l f = some r ↔
      (allowOther = true ∨ ∀ p ∈ l, lower p.1 = a) ∧
      ((f = none ∧ ∃ t v, (l.filter fun p => lower p.1 == a).map Prod.snd = [t] ∧ C t = some v ∧ r = some v) ∨ ((∀ p ∈ l, lower p.1 ≠ a) ∧ r = f)) := by
    intro l
    induction l with
    | nil => intro f r; simp [processLoop, eq_comm]
    | cons p l ih =>
        intro f r
        unfold processLoop
        by_cases hp : lower p.1 = a
        · have hp' : (a == lower p.1) = true := by simp [hp]
          rw [if_pos hp']
          cases f with
          | some x =>
              simp only [reduceCtorEq, false_and, false_or, false_iff, not_and]
              intro _ h2
              exact absurd hp (h2 p (by simp))
          | none =>
              simp only
              cases hC : C p.2 with
              | none =>
                  simp only [reduceCtorEq, false_iff, not_and, not_or]
                  intro _
                  refine ⟨?_, fun h2 => absurd hp (h2 p (by simp))⟩
                  rintro _ ⟨t, v, h1, h2, -⟩
                  rw [List.filter_cons_of_pos (by simp [hp])] at h1
                  simp only [List.map_cons, List.cons.injEq] at h1
                  rw [← h1.1, hC] at h2; simp at h2
              | some v =>
                  simp only [ih, reduceCtorEq, false_and, false_or]
                  rw [List.filter_cons_of_pos (by simp [hp])]
                  constructor
                  · rintro ⟨h1, h2, rfl⟩
                    refine ⟨h1.imp_right fun h q hq => ?_, .inl ⟨by trivial, p.2, v, ?_, hC, rfl⟩⟩
                    · rcases List.mem_cons.1 hq with rfl | hq
                      · exact hp
                      · exact h q hq
                    · rw [List.map_cons, List.filter_eq_nil_iff.2 (by simpa using h2)]; rfl
                  · rintro ⟨h1, ⟨-, t, v', h2, h3, rfl⟩ | ⟨h2, -⟩⟩
                    · simp only [List.map_cons, List.cons.injEq, List.map_eq_nil_iff, List.filter_eq_nil_iff] at h2
                      rw [← h2.1, hC] at h3
                      refine ⟨h1.imp_right fun h q hq => h q (by simp [hq]), by simpa using h2.2, h3.symm⟩
                    · exact absurd hp (h2 p (by simp))
        · have hp' : ¬ (a == lower p.1) = true := by simpa using fun h => hp h.symm
          rw [if_neg hp']
          cases allowOther with
          | false =>
              simp only [Bool.false_eq_true, if_false, reduceCtorEq, false_or, false_iff, not_and]
              intro h; exact absurd (h p (by simp)) hp
          | true =>
              simp only [if_true, ih, true_or, true_and]
              rw [List.filter_cons_of_neg (by simp [hp])]
              simp [hp]
  unfold processAttr
  cases h : processLoop C a allowOther n.attrs none with
  | none =>
      simp only [reduceCtorEq, false_iff, not_and, not_or]
      have hn : ∀ r, ¬ processLoop C a allowOther n.attrs none = some r := by intro r; rw [h]; simp
      intro h1
      refine ⟨?_, ?_⟩
      · rintro ⟨t, h2, h3⟩
        exact hn (some v) ((key _ _ _).2 ⟨h1, .inl ⟨rfl, t, v, h2, h3, rfl⟩⟩)
      · intro h2
        exact absurd ((key _ _ _).2 ⟨h1, .inr ⟨h2, rfl⟩⟩) (hn none)
  | some r =>
      simp only [Option.some.injEq]
      obtain ⟨h1, h2⟩ := (key _ _ _).1 h
      rcases h2 with ⟨-, t, w, h2, h3, rfl⟩ | ⟨h2, rfl⟩
      · simp only [Option.getD_some]
        constructor
        · rintro rfl; exact ⟨h1, .inl ⟨t, h2, h3⟩⟩
        · rintro ⟨-, ⟨t', h4, h5⟩ | ⟨h4, -⟩⟩
          · rw [h2] at h4; simp only [List.cons.injEq, and_true] at h4; rw [← h4, h3] at h5; simpa using h5
          · have : n.attrs.filter (fun p => lower p.1 == a) = [] := List.filter_eq_nil_iff.2 (by simpa using h4)
            rw [this] at h2; simp at h2
      · simp only [Option.getD_none]
        constructor
        · rintro rfl; exact ⟨h1, .inr ⟨h2, rfl⟩⟩
        · rintro ⟨-, ⟨t', h4, h5⟩ | ⟨-, h4⟩⟩
          · have : n.attrs.filter (fun p => lower p.1 == a) = [] := List.filter_eq_nil_iff.2 (by simpa using h2)
            rw [this] at h4; simp at h4
          · exact h4.symm

example : processName { name := "Node", attrs := [("Name", "Hand"), ("x", "1")] } true = some "Hand" := by decide
example : processName { name := "Node", attrs := [("Name", "Hand"), ("NAME", "Arm")] } true = none := by decide

end Simox.Rio
