import Verif.Rio.Joint
import Verif.Rio.TransformProps

/-!
# C134: limits of joints
-/

namespace Simox.Rio

open Rot Matrix

variable {F : String → Option ℝ}

/-- The text of the attribute `limitless`. -/
def limitlessText (n : Xml) : Option String := (n.attrs.find? fun p => p.1 == "limitless").map Prod.snd

theorem convertLimits_angle {u : Units} {s : ℝ} (h : IsUnit u .angle s) (l : Limits) : convertLimits u l = (⟨l.lo * s, l.hi * s, l.limitless⟩, "rad") := by
  have e := fun x => (((C132_convert (u := u) (s := s) x).1) h).1
  have hu : u.isAngle = true := (C132_recognised u).1.2 ⟨s, h⟩
  unfold convertLimits
  rw [if_pos hu]
  simp [Units.isLength, Units.isMillimeter, Units.isMeter, e]

theorem convertLimits_length {u : Units} {s : ℝ} (h : IsUnit u .length s) (l : Limits) : convertLimits u l = (⟨l.lo * s * 1000, l.hi * s * 1000, l.limitless⟩, "mm") := by
  have e : ∀ x, u.toMillimeter x = x * s * 1000 := by
    intro x
    have := (((C132_convert (u := u) (s := s) x).2.1) h).2
    linarith
  have hu : u.isLength = true := (C132_recognised u).2.1.2 ⟨s, h⟩
  have ha : u.isAngle = false := by
    rw [Bool.eq_false_iff]
    intro hc
    obtain ⟨s', h'⟩ := (C132_recognised u).1.1 hc
    have := (C132_unique h h').1
    simp at this
  unfold convertLimits
  simp only [ha, Bool.false_eq_true, if_false, hu, if_true, e]

/-- **C134** (both limits): limits in a unit of an angle are stored in radian, limits in a unit of a length in millimeters. -/
theorem C134_both {n : Xml} {u : Units} {x y : ℝ} (l : Limits) (hu : getUnits n .ignore = some u) (hx : getFloat F n "lo" = some x) (hy : getFloat F n "hi" = some y)
    (hl : limitlessText n = none) :
    (∀ s, IsUnit u .angle s → processLimits F n l = some ⟨x * s, y * s, l.limitless⟩) ∧
    (∀ s, IsUnit u .length s → processLimits F n l = some ⟨x * s * 1000, y * s * 1000, l.limitless⟩) := by
  unfold limitlessText at hl
  constructor
  · intro s hs
    unfold processLimits
    simp only [hu, readLo, hx, readHi, hy, convertLimits_angle hs, setLimitless, hl]
  · intro s hs
    unfold processLimits
    simp only [hu, readLo, hx, readHi, hy, convertLimits_length hs, setLimitless, hl]

example : ∃ n : Xml, getUnits n .ignore = some "deg" ∧ getFloat exampleF n "lo" = some 0 ∧ getFloat exampleF n "hi" = some 90 ∧ limitlessText n = none :=
  ⟨{ name := "Limits", attrs := [("lo", "0"), ("hi", "90"), ("units", "Deg")] }, by simp [getUnits, unitsAttr, Xml.firstAttr, same, lower, unitsOk],
    by simp [getFloat, Xml.firstAttr, same, lower, exampleF], by simp [getFloat, Xml.firstAttr, same, lower, exampleF], by simp [limitlessText]⟩

/-- **C134** (no unit): limits without a unit are refused. -/
theorem C134_no_unit (n : Xml) (l : Limits) (h : hasUnits n = false) : processLimits F n l = none := by
  have : getUnits n .ignore = none := by
    have := (C132_has n).1
    rw [h] at this
    simpa using this
  unfold processLimits
  rw [this]

/-- **C134** (no limits): the limits of a joint marked as limitless span a full turn: those given if they do, -π and π otherwise; a text that does not mean true
leaves the limits. -/
theorem C134_limitless {n : Xml} {u : Units} {x y s : ℝ} {v : String} (l : Limits) (hu : getUnits n .ignore = some u) (hx : getFloat F n "lo" = some x)
    (hy : getFloat F n "hi" = some y) (hs : IsUnit u .angle s) (hl : limitlessText n = some v) :
    ∃ r, processLimits F n l = some r ∧ r.limitless = isTrue v ∧ (isTrue v = true → r.hi - r.lo = 2 * Real.pi) ∧
      (isTrue v = false ∨ y * s - x * s = 2 * Real.pi → r.lo = x * s ∧ r.hi = y * s) ∧
      (isTrue v = true → y * s - x * s ≠ 2 * Real.pi → r.lo = -Real.pi ∧ r.hi = Real.pi) := by
  have hpi := Real.pi_pos
  unfold limitlessText at hl
  have e : processLimits F n l = some (setLimitless n "rad" ⟨x * s, y * s, l.limitless⟩) := by
    unfold processLimits
    simp only [hu, readLo, hx, readHi, hy, convertLimits_angle hs]
  have hd : ∀ x : ℝ, Units.toDegree "rad" x = x * 180 / Real.pi := by intro x; simp [Units.toDegree, Units.isRadian]
  have key : Units.toDegree "rad" (y * s) - Units.toDegree "rad" (x * s) = 360 ↔ y * s - x * s = 2 * Real.pi := by
    rw [hd, hd]
    constructor
    · intro h; field_simp at h; linarith
    · intro h; field_simp; linarith
  refine ⟨_, e, ?_⟩
  unfold setLimitless
  simp only [hl]
  cases hv : isTrue v with
  | false => simp
  | true =>
      by_cases hk : y * s - x * s = 2 * Real.pi
      · have : ¬ ((true && Units.isAngle "rad" && decide (Units.toDegree "rad" (y * s) - Units.toDegree "rad" (x * s) ≠ 360)) = true) := by
          rw [key.2 hk]; simp
        simp only [this]
        simp [hk]
      · have : (true && Units.isAngle "rad" && decide (Units.toDegree "rad" (y * s) - Units.toDegree "rad" (x * s) ≠ 360)) = true := by
          have h' : Units.toDegree "rad" (y * s) - Units.toDegree "rad" (x * s) ≠ 360 := fun h => hk (key.1 h)
          simp [h', Units.isAngle, Units.isRadian]
        simp only [this, if_true]
        refine ⟨trivial, fun _ => by ring, ?_, fun _ _ => ⟨trivial, trivial⟩⟩
        rintro (h | h)
        · simp at h
        · exact absurd h hk

/-- **C134** (missing limits, partial): a missing limit is -π or π if the other one is in radian; a missing lower limit is -1000 mm if the upper one is in
millimeters. Missing: a missing limit beside one in degrees or meters, and a missing upper limit of a length; see the refutations. -/
theorem C134_missing_partial {n : Xml} {u : Units} (l : Limits) (hu : getUnits n .ignore = some u) (hl : limitlessText n = none) :
    (IsUnit u .angle 1 → (∀ y, getFloat F n "lo" = none → getFloat F n "hi" = some y → processLimits F n l = some ⟨-Real.pi, y, l.limitless⟩) ∧
      (∀ x, getFloat F n "lo" = some x → getFloat F n "hi" = none → processLimits F n l = some ⟨x, Real.pi, l.limitless⟩) ∧
      (getFloat F n "lo" = none → getFloat F n "hi" = none → processLimits F n l = some ⟨-Real.pi, Real.pi, l.limitless⟩)) ∧
    (IsUnit u .length (1 / 1000) → ∀ y, getFloat F n "lo" = none → getFloat F n "hi" = some y → processLimits F n l = some ⟨-1000, y, l.limitless⟩) := by
  unfold limitlessText at hl
  have hr : IsUnit "rad" .angle 1 := by simp [IsUnit, unitTable]
  have hm : IsUnit "mm" .length (1 / 1000) := by simp [IsUnit, unitTable]
  have hrl : Units.isLength "rad" = false := by decide
  refine ⟨fun h => ?_, fun h y h1 h2 => ?_⟩
  · have ha : u.isLength = false := by
      rw [Bool.eq_false_iff]
      intro hc
      obtain ⟨s', h'⟩ := (C132_recognised u).2.1.1 hc
      have := (C132_unique h h').1
      simp at this
    refine ⟨fun y h1 h2 => ?_, fun x h1 h2 => ?_, fun h1 h2 => ?_⟩
    · unfold processLimits
      simp only [hu, readLo, h1, ha, Bool.false_eq_true, if_false, readHi, h2, convertLimits_angle hr, setLimitless, hl, mul_one]
    · unfold processLimits
      simp only [hu, readLo, h1, readHi, h2, ha, Bool.false_eq_true, if_false, convertLimits_angle hr, setLimitless, hl, mul_one]
    · unfold processLimits
      simp only [hu, readLo, h1, readHi, h2, ha, hrl, Bool.false_eq_true, if_false, convertLimits_angle hr, setLimitless, hl, mul_one]
  · have ha : u.isLength = true := (C132_recognised u).2.1.2 ⟨_, h⟩
    unfold processLimits
    simp only [hu, readLo, h1, ha, if_true, readHi, h2, convertLimits_length hm, setLimitless, hl]
    norm_num
    ring

/-- A `<Limits>` element for the examples. -/
def limitsXml (attrs : List (String × String)) : Xml := { name := "Limits", attrs := attrs }

/-- **C134** (missing upper limit, refuted): without an upper limit of a length, the lower limit becomes 1000 mm and the upper one keeps the value π: the limits
are the wrong way round. -/
theorem C134_missing_hi_false : ∃ n : Xml, n.firstAttr "lo" = some "1" ∧ n.firstAttr "units" = some "mm" ∧
    ∃ r, processLimits exampleF n Limits.standard = some r ∧ r.lo = 1000 ∧ r.hi = Real.pi ∧ r.hi < r.lo := by
  refine ⟨limitsXml [("lo", "1"), ("units", "mm")], by decide, by decide, ?_⟩
  have hm : IsUnit "mm" .length (1 / 1000) := by simp [IsUnit, unitTable]
  have hu : getUnits (limitsXml [("lo", "1"), ("units", "mm")]) .ignore = some "mm" := by decide
  have hx : getFloat exampleF (limitsXml [("lo", "1"), ("units", "mm")]) "lo" = some 1 := by simp [limitsXml, getFloat, Xml.firstAttr, same, lower, exampleF]
  have hy : getFloat exampleF (limitsXml [("lo", "1"), ("units", "mm")]) "hi" = none := by simp [limitsXml, getFloat, Xml.firstAttr, same, lower]
  refine ⟨⟨1000, Real.pi, false⟩, ?_, rfl, rfl, ?_⟩
  · have hul : Units.isLength "mm" = true := by decide
    unfold processLimits
    simp only [hu, readLo, hx, readHi, hy, hul, if_true, convertLimits_length hm]
    have : (limitsXml [("lo", "1"), ("units", "mm")]).attrs.find? (fun p => p.1 == "limitless") = none := by decide
    simp only [setLimitless, this, Option.map_none, Limits.standard]
    norm_num
    ring
  · have := Real.pi_le_four
    linarith

/-- **C134** (missing lower limit, refuted): without a lower limit the unit is forgotten: an upper limit of 90 degrees becomes 90 radian, an upper limit of 2 m
becomes 2 mm. -/
theorem C134_missing_lo_false :
    (∃ n : Xml, n.firstAttr "hi" = some "90" ∧ n.firstAttr "units" = some "deg" ∧ ∃ r, processLimits exampleF n Limits.standard = some r ∧ r.hi = 90) ∧
    (∃ n : Xml, n.firstAttr "hi" = some "2" ∧ n.firstAttr "units" = some "m" ∧ ∃ r, processLimits exampleF n Limits.standard = some r ∧ r.hi = 2) := by
  have hm : IsUnit "mm" .length (1 / 1000) := by simp [IsUnit, unitTable]
  have hr : IsUnit "rad" .angle 1 := by simp [IsUnit, unitTable]
  constructor
  · refine ⟨limitsXml [("hi", "90"), ("units", "deg")], by decide, by decide, ⟨-Real.pi, 90, false⟩, ?_, rfl⟩
    have hu : getUnits (limitsXml [("hi", "90"), ("units", "deg")]) .ignore = some "deg" := by decide
    have hx : getFloat exampleF (limitsXml [("hi", "90"), ("units", "deg")]) "hi" = some 90 := by simp [limitsXml, getFloat, Xml.firstAttr, same, lower, exampleF]
    have hy : getFloat exampleF (limitsXml [("hi", "90"), ("units", "deg")]) "lo" = none := by simp [limitsXml, getFloat, Xml.firstAttr, same, lower]
    have hul : Units.isLength "deg" = false := by decide
    unfold processLimits
    simp only [hu, readLo, hx, readHi, hy, hul, Bool.false_eq_true, if_false, convertLimits_angle hr]
    have : (limitsXml [("hi", "90"), ("units", "deg")]).attrs.find? (fun p => p.1 == "limitless") = none := by decide
    simp only [setLimitless, this, Option.map_none, Limits.standard, mul_one]
  · refine ⟨limitsXml [("hi", "2"), ("units", "m")], by decide, by decide, ⟨-1000, 2, false⟩, ?_, rfl⟩
    have hu : getUnits (limitsXml [("hi", "2"), ("units", "m")]) .ignore = some "m" := by decide
    have hx : getFloat exampleF (limitsXml [("hi", "2"), ("units", "m")]) "hi" = some 2 := by simp [limitsXml, getFloat, Xml.firstAttr, same, lower, exampleF]
    have hy : getFloat exampleF (limitsXml [("hi", "2"), ("units", "m")]) "lo" = none := by simp [limitsXml, getFloat, Xml.firstAttr, same, lower]
    have hul : Units.isLength "m" = true := by decide
    unfold processLimits
    simp only [hu, readLo, hx, readHi, hy, hul, if_true, convertLimits_length hm]
    have : (limitsXml [("hi", "2"), ("units", "m")]).attrs.find? (fun p => p.1 == "limitless") = none := by decide
    simp only [setLimitless, this, Option.map_none, Limits.standard]
    norm_num

/-- **C134** (unknown unit, refuted): a text that is no unit is accepted, and the numbers are taken as they are: 90 "degrees" are 90 radian. -/
theorem C134_unknown_unit_false : ∃ n : Xml, n.firstAttr "units" = some "degrees" ∧ (∀ d s, ¬ IsUnit "degrees" d s) ∧
    ∃ r, processLimits exampleF n Limits.standard = some r ∧ r.lo = 0 ∧ r.hi = 90 := by
  refine ⟨limitsXml [("lo", "0"), ("hi", "90"), ("units", "degrees")], by decide, fun d s => by simp [IsUnit, unitTable], ⟨0, 90, false⟩, ?_, rfl, rfl⟩
  have hu : getUnits (limitsXml [("lo", "0"), ("hi", "90"), ("units", "degrees")]) .ignore = some "degrees" := by decide
  have hx : getFloat exampleF (limitsXml [("lo", "0"), ("hi", "90"), ("units", "degrees")]) "lo" = some 0 := by simp [limitsXml, getFloat, Xml.firstAttr, same, lower, exampleF]
  have hy : getFloat exampleF (limitsXml [("lo", "0"), ("hi", "90"), ("units", "degrees")]) "hi" = some 90 := by simp [limitsXml, getFloat, Xml.firstAttr, same, lower, exampleF]
  have h1 : Units.isAngle "degrees" = false := by decide
  have h2 : Units.isLength "degrees" = false := by decide
  unfold processLimits
  simp only [hu, readLo, hx, readHi, hy, convertLimits, h1, h2, Bool.false_eq_true, if_false]
  have : (limitsXml [("lo", "0"), ("hi", "90"), ("units", "degrees")]).attrs.find? (fun p => p.1 == "limitless") = none := by decide
  simp only [setLimitless, this, Option.map_none, Limits.standard]

/-- **C134** (case, refuted): the names of all other attributes may be written in any case, but `Limitless` is ignored. -/
theorem C134_limitless_case_false : ∃ n : Xml, n.firstAttr "limitless" = some "true" ∧ ∃ r, processLimits exampleF n Limits.standard = some r ∧ r.limitless = false := by
  have hr : IsUnit "rad" .angle 1 := by simp [IsUnit, unitTable]
  refine ⟨limitsXml [("Lo", "0"), ("Hi", "90"), ("Units", "Rad"), ("Limitless", "true")], by decide, ⟨0, 90, false⟩, ?_, rfl⟩
  rw [(C134_both (F := exampleF) (x := 0) (y := 90) (u := "rad") Limits.standard (by decide) (by simp [limitsXml, getFloat, Xml.firstAttr, same, lower, exampleF])
    (by simp [limitsXml, getFloat, Xml.firstAttr, same, lower, exampleF]) (by simp [limitsXml, limitlessText])).1 1 hr]
  simp [Limits.standard]

theorem processJoint_eq {n : Xml} {j : Joint} (h : processJoint F n = some j) : ∃ o x d a t sc, getOptFloat F n "offset" 0 = some o ∧
    getOptFloat F n "initialvalue" 0 = some x ∧ jointLoop F n.children {} = some d ∧ j = makeJoint (jointType n) o x d a t sc ∧
    ((jointType n = "revolute" ∧ jointAxis F d = some a ∧ t = 0 ∧ sc = none) ∨ (jointType n = "prismatic" ∧ jointTranslation F d = some t ∧ a = 0 ∧ sc = d.scale ∧ sc ≠ some 0) ∨
      (jointType n = "fixed" ∧ a = 0 ∧ t = 0 ∧ sc = none)) := by
  unfold processJoint at h
  cases ho : getOptFloat F n "offset" 0 with
  | none => rw [ho] at h; simp at h
  | some o =>
  cases hx : getOptFloat F n "initialvalue" 0 with
  | none => rw [ho, hx] at h; simp at h
  | some x =>
  rw [ho, hx] at h
  dsimp only at h
  cases hd : jointLoop F n.children {} with
  | none => rw [hd] at h; simp at h
  | some d =>
  rw [hd, Option.bind_some] at h
  unfold finishJoint at h
  by_cases c1 : jointType n = "revolute"
  · rw [if_pos (by simpa using c1)] at h
    simp only [Option.map_eq_some_iff] at h
    obtain ⟨a, h1, h2⟩ := h
    exact ⟨o, x, d, a, 0, none, rfl, rfl, rfl, h2.symm, .inl ⟨c1, h1, rfl, rfl⟩⟩
  · rw [if_neg (by simpa using c1)] at h
    by_cases c2 : jointType n = "prismatic"
    · rw [if_pos (by simpa using c2)] at h
      by_cases c3 : d.scale = some 0
      · rw [if_pos c3] at h; simp at h
      · rw [if_neg c3] at h
        simp only [Option.map_eq_some_iff] at h
        obtain ⟨a, h1, h2⟩ := h
        exact ⟨o, x, d, 0, a, d.scale, rfl, rfl, rfl, h2.symm, .inr (.inl ⟨c2, h1, rfl, rfl, c3⟩)⟩
    · rw [if_neg (by simpa using c2)] at h
      by_cases c3 : jointType n = "fixed"
      · rw [if_pos (by simpa using c3)] at h
        simp only [Option.some.injEq] at h
        exact ⟨o, x, d, 0, 0, none, rfl, rfl, rfl, h.symm, .inr (.inr ⟨c3, rfl, rfl, rfl⟩)⟩
      · rw [if_neg (by simpa using c3)] at h; simp at h

/-- **C134** (start): a joint starts with its initial value, moved to the nearest limit if it is outside; that of a fixed joint is as given. -/
theorem C134_start {n : Xml} {j : Joint} {x : ℝ} (h : processJoint F n = some j) (hx : getOptFloat F n "initialvalue" 0 = some x) :
    (j.type = "fixed" → j.value = x) ∧
    (j.type ≠ "fixed" → j.lo ≤ j.hi → j.lo ≤ j.value ∧ j.value ≤ j.hi ∧ ∀ y, j.lo ≤ y → y ≤ j.hi → |j.value - x| ≤ |y - x|) := by
  obtain ⟨o, x', d, a, t, sc, -, hx', -, rfl, -⟩ := processJoint_eq h
  rw [hx] at hx'
  simp only [Option.some.injEq] at hx'
  subst hx'
  generalize hj : makeJoint (jointType n) o x d a t sc = j
  have h2 : j.value = startValue (j.type != "fixed") j.lo j.hi x := by rw [← hj]; rfl
  constructor
  · intro ht
    rw [h2, ht]
    simp [startValue]
  · intro ht hl
    have hb : (j.type != "fixed") = true := by simpa using ht
    rw [hb] at h2
    unfold startValue at h2
    simp only [if_true] at h2
    by_cases c1 : x < j.lo
    · rw [if_pos c1] at h2
      refine ⟨h2.ge, by rw [h2]; exact hl, fun y hy _ => ?_⟩
      rw [h2, abs_of_pos (by linarith), abs_of_pos (by linarith)]; linarith
    · rw [if_neg c1] at h2
      by_cases c2 : x > j.hi
      · rw [if_pos c2] at h2
        refine ⟨by rw [h2]; exact hl, h2.le, fun y _ hy => ?_⟩
        rw [h2, abs_of_neg (by linarith), abs_of_neg (by linarith)]; linarith
      · rw [if_neg c2] at h2
        push Not at c1 c2
        refine ⟨by rw [h2]; exact c1, by rw [h2]; exact c2, fun y _ _ => ?_⟩
        rw [h2]; simp

end Simox.Rio
