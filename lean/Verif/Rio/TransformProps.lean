import Verif.Rio.Transform
import Verif.Rio.UnitProps
import Verif.Rot.QuatProps
import Verif.Rot.RpyProps

/-!
# C133: transformations of a robot definition
-/

namespace Simox.Rio

open Rot Matrix

variable {F : String → Option ℝ}

/-- The size, in meters, of the unit in which the lengths of an element are given: millimeters if no unit is given. -/
def LengthIn (n : Xml) (s : ℝ) : Prop := (hasUnits n = false ∧ s = 1 / 1000) ∨ ∃ u, getUnits n .length = some u ∧ IsUnit u .length s

theorem hasUnits_of {n : Xml} {k : Kind} {u : Units} (h : getUnits n k = some u) : hasUnits n = true := by
  obtain ⟨v, hv, -, -⟩ := (C132_attribute n k u).1 h
  obtain ⟨a, ha, hav⟩ := List.exists_of_findSome?_eq_some hv
  have : (n.firstAttr a).isSome = true := by rw [hav]; rfl
  unfold hasUnits
  cases k <;> simp only [unitNames, List.mem_cons, List.not_mem_nil, or_false] at ha <;> rcases ha with rfl | rfl | rfl | rfl | rfl | rfl <;> simp [this]

theorem isMeter_size {u : Units} {s : ℝ} (h : IsUnit u .length s) : (u.isMeter = true ∧ s = 1) ∨ (u.isMeter = false ∧ s = 1 / 1000) := by
  simp only [IsUnit, unitTable, List.mem_cons, Prod.mk.injEq, List.not_mem_nil, or_false, reduceCtorEq, false_and, and_false, false_or, true_and] at h
  rcases h with ⟨rfl, rfl⟩ | ⟨rfl, rfl⟩ | ⟨rfl, rfl⟩ | ⟨rfl, rfl⟩
  · exact .inl ⟨by decide, rfl⟩
  · exact .inl ⟨by decide, rfl⟩
  · exact .inr ⟨by decide, rfl⟩
  · exact .inr ⟨by decide, rfl⟩

theorem scaleLength_eq {n : Xml} {s : ℝ} (h : LengthIn n s) (m : M4) :
    scaleLength n m = some (setPos m (1000 * s * m 0 3) (1000 * s * m 1 3) (1000 * s * m 2 3)) := by
  have e : setPos m (m 0 3) (m 1 3) (m 2 3) = m := by
    ext i j; fin_cases i <;> fin_cases j <;> rfl
  unfold scaleLength
  rcases h with ⟨h, rfl⟩ | ⟨u, h, hu⟩
  · rw [h]; norm_num; exact e.symm
  · rw [hasUnits_of h, if_pos rfl, h]
    simp only
    rcases isMeter_size hu with ⟨h1, rfl⟩ | ⟨h1, rfl⟩
    · rw [h1, if_pos rfl]; simp only [mul_one, mul_comm (m _ _)]
    · rw [h1]; norm_num; exact e.symm

/-- **C133** (translation): a translation moves by the given numbers, in millimeters, whatever the unit they are given in. -/
theorem C133_translation {n : Xml} (hn : lower n.name = "translation" ∨ lower n.name = "trans") {x y z s : ℝ} (hx : getFloat F n "x" = some x)
    (hy : getFloat F n "y" = some y) (hz : getFloat F n "z" = some z) (hs : LengthIn n s) :
    ∃ t, processPart F n = some t ∧ rotPart t = 1 ∧ Rot.posPart t = (1000 * s) • ![x, y, z] ∧ t 3 = ![0, 0, 0, 1] := by
  have hp : processPart F n = processTranslation F n := by
    unfold processPart
    rcases hn with h | h <;> rw [h] <;> simp
  rw [hp, processTranslation, hx, hy, hz]
  simp only
  rw [scaleLength_eq hs]
  refine ⟨_, rfl, ?_, ?_, ?_⟩
  · ext i j; fin_cases i <;> fin_cases j <;> simp [rotPart, setPos]
  · ext j; fin_cases j <;> simp [Rot.posPart, setPos]
  · ext j; fin_cases j <;> simp [setPos]

/-- The numbers of the examples. -/
noncomputable def exampleF (t : String) : Option ℝ := if t = "0" then some 0 else if t = "1" then some 1 else if t = "2" then some 2 else if t = "90" then some 90 else none

example : ∃ t, processPart exampleF { name := "Translation", attrs := [("x", "1"), ("Y", "2"), ("z", "0"), ("units", "M")] } = some t ∧ Rot.posPart t = (1000 * 1 : ℝ) • ![1, 2, 0] := by
  obtain ⟨t, h1, -, h2, -⟩ := C133_translation (F := exampleF) (n := { name := "Translation", attrs := [("x", "1"), ("Y", "2"), ("z", "0"), ("units", "M")] })
    (x := 1) (y := 2) (z := 0) (s := 1) (.inl (by decide)) (by simp [getFloat, Xml.firstAttr, same, lower, exampleF]) (by simp [getFloat, Xml.firstAttr, same, lower, exampleF])
    (by simp [getFloat, Xml.firstAttr, same, lower, exampleF]) (.inr ⟨"m", by decide, by simp [IsUnit, unitTable]⟩)
  exact ⟨t, h1, h2⟩

/-- **C133** (roll, pitch, yaw): the rotation turns by the roll about the x axis, then by the pitch about the y axis, then by the yaw about the z axis, with angles
in the unit given. -/
theorem C133_rpy {n : Xml} (hn : lower n.name = "rollpitchyaw" ∨ lower n.name = "rpy") {r p y s : ℝ} {u : Units} (hr : getFloat F n "roll" = some r)
    (hp : getFloat F n "pitch" = some p) (hy : getFloat F n "yaw" = some y) (hu : getUnits n .angle = some u) (hs : IsUnit u .angle s) :
    ∃ t, processPart F n = some t ∧ rotPart t = rotZ (y * s) * rotY (p * s) * rotX (r * s) ∧ Rot.posPart t = 0 ∧ IsPose t := by
  have hq : processPart F n = processRpy F n := by
    unfold processPart
    rcases hn with h | h <;> rw [h] <;> simp
  have e : processRpy F n = some (rpy2eigen4f (r * s) (p * s) (y * s)) := by
    unfold processRpy
    rw [hr, hp, hy]
    simp only [hu]
    simp only [IsUnit, unitTable, List.mem_cons, Prod.mk.injEq, List.not_mem_nil, or_false, reduceCtorEq, false_and, and_false, true_and] at hs
    rcases hs with ⟨rfl, rfl⟩ | ⟨rfl, rfl⟩ | ⟨rfl, rfl⟩ | ⟨rfl, rfl⟩
    · simp [Units.isDegree]
    · simp [Units.isDegree]
    · simp only [Units.isDegree, beq_self_eq_true, Bool.or_true, if_true]
      simp only [div_mul_eq_mul_div, mul_div_assoc]
    · simp only [Units.isDegree, beq_self_eq_true, Bool.true_or, if_true]
      simp only [div_mul_eq_mul_div, mul_div_assoc]
  obtain ⟨h1, h2, h3, h4, -⟩ := C68_from_rpy ⟨0, 0, 0, r * s, p * s, y * s⟩
  simp only at h1 h2 h3 h4
  rw [← h4] at h1 h2 h3
  refine ⟨_, hq.trans e, h3, ?_, h1⟩
  rw [h2]; ext j; fin_cases j <;> rfl

/-- **C133** (quaternion): the rotation of a unit quaternion turns a vector `v` to `q v q*`. -/
theorem C133_quat {n : Xml} (hn : lower n.name = "quaternion" ∨ lower n.name = "quat") {x y z w : ℝ} (hx : getFloat F n "x" = some x)
    (hy : getFloat F n "y" = some y) (hz : getFloat F n "z" = some z) (hw : getFloat F n "w" = some w) (h1 : x ^ 2 + y ^ 2 + z ^ 2 + w ^ 2 = 1) :
    ∃ t, processPart F n = some t ∧ (∀ v, imH (rotPart t *ᵥ v) = ⟨w, x, y, z⟩ * imH v * star ⟨w, x, y, z⟩) ∧ Rot.posPart t = 0 ∧ IsPose t := by
  have hq : processPart F n = processQuat F n := by
    unfold processPart
    rcases hn with h | h <;> rw [h] <;> simp
  obtain ⟨c1, c2, c3, -⟩ := C69_rotation ⟨x, y, z, w⟩ ⟨x, y, z, w⟩ h1 h1
  refine ⟨_, ?_, c3, c2, c1⟩
  rw [hq, processQuat, hx, hy, hz, hw]

theorem lastUnit_mem (p : Units → Bool) (standard : Units) (l : List Units) : lastUnit p standard l = ((l.filter p).getLast?).getD standard := by
  unfold lastUnit
  induction l generalizing standard with
  | nil => rfl
  | cons a l ih =>
      rw [List.foldl_cons, ih]
      by_cases h : p a = true
      · rw [if_pos h, List.filter_cons_of_pos h, List.getLast?_cons]
        cases (l.filter p).getLast? <;> rfl
      · rw [if_neg h, List.filter_cons_of_neg h]

theorem rotZ_rotX_mem (a b : ℝ) : rotZ a * rotX b ∈ Matrix.specialOrthogonalGroup (Fin 3) ℝ := by
  have := rpy3_mem b 0 a
  rw [← rotZYX] at this
  have e : rotY 0 = 1 := by ext i j; fin_cases i <;> fin_cases j <;> simp [rotY]
  rwa [e, mul_one] at this

theorem dh_spec (h : DH) : rotPart h.transformation = rotZ h.theta * rotX h.alpha ∧ Rot.posPart h.transformation = rotZ h.theta *ᵥ ![h.a, 0, h.d] ∧ IsPose h.transformation := by
  have e : h.transformation = !![Real.cos h.theta, -Real.sin h.theta * Real.cos h.alpha, Real.sin h.theta * Real.sin h.alpha, h.a * Real.cos h.theta;
      Real.sin h.theta, Real.cos h.theta * Real.cos h.alpha, -Real.cos h.theta * Real.sin h.alpha, h.a * Real.sin h.theta;
      0, Real.sin h.alpha, Real.cos h.alpha, h.d; 0, 0, 0, 1] := by
    unfold DH.transformation
    ext i j
    fin_cases i <;> fin_cases j <;> simp [Matrix.mul_apply, Fin.sum_univ_four] <;> ring
  have hr : rotPart h.transformation = rotZ h.theta * rotX h.alpha := by
    rw [e]; ext i j
    fin_cases i <;> fin_cases j <;> simp [rotPart, rotZ, rotX, Matrix.mul_apply, Fin.sum_univ_three]
  refine ⟨hr, ?_, ?_, ?_⟩
  · rw [e]; ext j
    fin_cases j <;> simp [Rot.posPart, rotZ, Matrix.mulVec, dotProduct, Fin.sum_univ_three] <;> ring
  · change rotPart _ ∈ _
    rw [hr]; exact rotZ_rotX_mem _ _
  · rw [e]; ext j; fin_cases j <;> simp

/-- The last of the units of a kind that an element gives, `standard` if it gives none. -/
def LastOf (n : Xml) (d : Dim) (standard : ℝ) (s : ℝ) : Prop :=
  (∃ u, ((getAllUnits n).filter fun v => v ∈ (unitTable.filter fun r => r.2.1 = d).map Prod.fst).getLast? = some u ∧ IsUnit u d s) ∨
    ((∀ u ∈ getAllUnits n, ∀ s, ¬ IsUnit u d s) ∧ s = standard)

theorem mem_table (d : Dim) (u : Units) : u ∈ (unitTable.filter fun r => r.2.1 = d).map Prod.fst ↔ ∃ s, IsUnit u d s := by
  simp only [List.mem_map, List.mem_filter, decide_eq_true_eq, IsUnit, Prod.exists, exists_and_right, exists_eq_right]

theorem lastOf_unit {n : Xml} {d : Dim} {st s : ℝ} {p : Units → Bool} {standard : Units} (hp : ∀ u, p u = true ↔ ∃ s, IsUnit u d s) (hst : IsUnit standard d st) (h : LastOf n d st s) :
    IsUnit (lastUnit p standard (getAllUnits n)) d s := by
  rw [lastUnit_mem]
  have hf : (getAllUnits n).filter p = (getAllUnits n).filter fun v => v ∈ (unitTable.filter fun r => r.2.1 = d).map Prod.fst := by
    apply List.filter_congr
    intro u _
    rw [Bool.eq_iff_iff, hp, decide_eq_true_eq, mem_table]
  rcases h with ⟨u, h1, h2⟩ | ⟨h1, rfl⟩
  · rw [hf, h1]; exact h2
  · have : (getAllUnits n).filter p = [] := by
      rw [List.filter_eq_nil_iff]
      intro u hu hpu
      obtain ⟨s, hs⟩ := (hp u).1 hpu
      exact h1 u hu s hs
    rw [this]; exact hst

/-- A number that need not be there: zero otherwise. -/
def OptNumber (F : String → Option ℝ) (n : Xml) (a : String) (x : ℝ) : Prop := (n.firstAttr a = none ∧ x = 0) ∨ ∃ t, n.firstAttr a = some t ∧ F t = some x

/-- **C133** (Denavit-Hartenberg): the transformation is a rotation by theta about the z axis, a translation by d along the z axis, a translation by a along
the x axis and a rotation by alpha about the x axis, one after the other. Lengths are in millimeters and angles in radian if the element does not give units, the
last unit of each kind otherwise. -/
theorem C133_dh {n : Xml} (hn : lower n.name = "dh") {a d alpha theta sl sa : ℝ} (ha : OptNumber F n "a" a) (hd : OptNumber F n "d" d) (hal : OptNumber F n "alpha" alpha)
    (hth : OptNumber F n "theta" theta) (hl : LastOf n .length (1 / 1000) sl) (hang : LastOf n .angle 1 sa) :
    ∃ t, processPart F n = some t ∧ rotPart t = rotZ (theta * sa) * rotX (alpha * sa) ∧
      Rot.posPart t = rotZ (theta * sa) *ᵥ ![a * sl * 1000, 0, d * sl * 1000] ∧ IsPose t := by
  have hq : processPart F n = (processDH F n).map DH.transformation := by
    unfold processPart
    rw [hn]; simp
  have hL : IsUnit (lastUnit Units.isLength "mm" (getAllUnits n)) .length sl :=
    lastOf_unit (fun u => (C132_recognised u).2.1) (by simp [IsUnit, unitTable]) hl
  have hA : IsUnit (lastUnit Units.isAngle "rad" (getAllUnits n)) .angle sa :=
    lastOf_unit (fun u => (C132_recognised u).1) (by simp [IsUnit, unitTable]) hang
  generalize hul : lastUnit Units.isLength "mm" (getAllUnits n) = ul at hL
  generalize hua : lastUnit Units.isAngle "rad" (getAllUnits n) = ua at hA
  have l1 : ∀ x, ul.toMillimeter x = x * sl * 1000 := by
    intro x
    have := ((C132_convert (u := ul) (s := sl) x).2.1 hL).2
    linarith
  have a1 : ∀ x, angleRadian x ua.isRadian = x * sa := by
    intro x
    simp only [IsUnit, unitTable, List.mem_cons, Prod.mk.injEq, List.not_mem_nil, or_false, reduceCtorEq, false_and, and_false, true_and] at hA
    rcases hA with ⟨rfl, rfl⟩ | ⟨rfl, rfl⟩ | ⟨rfl, rfl⟩ | ⟨rfl, rfl⟩ <;> simp [angleRadian, Units.isRadian]
  have o1 : ∀ (g : ℝ → ℝ) (b : String) (x : ℝ), g 0 = 0 → OptNumber F n b x → getOptFloat (fun t => (F t).map g) n b 0 = some (g x) := by
    intro g b x g0 h
    unfold getOptFloat
    rcases h with ⟨h, rfl⟩ | ⟨t, h, ht⟩
    · rw [h, g0]
    · rw [h]; simp [ht]
  have e : processDH F n = some ⟨theta * sa, d * sl * 1000, a * sl * 1000, alpha * sa⟩ := by
    unfold processDH
    simp only [hul, hua, a1]
    rw [o1 _ _ _ (by rw [l1]; ring) ha, o1 _ _ _ (by rw [l1]; ring) hd, o1 _ _ _ (by ring) hal, o1 _ _ _ (by ring) hth]
    simp only [l1]
  obtain ⟨r1, r2, r3⟩ := dh_spec ⟨theta * sa, d * sl * 1000, a * sl * 1000, alpha * sa⟩
  exact ⟨_, by rw [hq, e]; rfl, r1, r2, r3⟩

/-- A row of a matrix element: the numbers of its attributes, those of the identity if there is no such row. -/
def RowIn (F : String → Option ℝ) (n : Xml) (name : String) (cols : List String) (standard row : List ℝ) : Prop :=
  (n.firstNode name = none ∧ row = standard) ∨ ∃ r, n.firstNode name = some r ∧ cols.map (getFloat F r) = row.map some

/-- **C133** (matrices): a 4x4 matrix has the entries of its rows, a missing row is that of the identity, and the position is converted to millimeters. -/
theorem C133_matrix4 {n : Xml} (hn : lower n.name = "matrix4x4") {s : ℝ} (hs : LengthIn n s) {m : M4}
    (h1 : RowIn F n "row1" ["c1", "c2", "c3", "c4"] [1, 0, 0, 0] [m 0 0, m 0 1, m 0 2, m 0 3])
    (h2 : RowIn F n "row2" ["c1", "c2", "c3", "c4"] [0, 1, 0, 0] [m 1 0, m 1 1, m 1 2, m 1 3])
    (h3 : RowIn F n "row3" ["c1", "c2", "c3", "c4"] [0, 0, 1, 0] [m 2 0, m 2 1, m 2 2, m 2 3])
    (h4 : RowIn F n "row4" ["c1", "c2", "c3", "c4"] [0, 0, 0, 1] [m 3 0, m 3 1, m 3 2, m 3 3]) :
    ∃ t, processPart F n = some t ∧ rotPart t = rotPart m ∧ Rot.posPart t = (1000 * s) • Rot.posPart m ∧ t 3 = m 3 := by
  have hq : processPart F n = processMatrix4 F n := by
    unfold processPart
    rw [hn]; simp
  have key : ∀ (name : String) (a b c d a' b' c' d' : ℝ), RowIn F n name ["c1", "c2", "c3", "c4"] [a', b', c', d'] [a, b, c, d] →
      optRow (row4 F) n name ![a', b', c', d'] = some ![a, b, c, d] := by
    intro name a b c d a' b' c' d' h
    unfold optRow
    rcases h with ⟨h, e⟩ | ⟨r, h, e⟩
    · rw [h]; simp only [List.cons.injEq, and_true] at e; obtain ⟨rfl, rfl, rfl, rfl⟩ := e; rfl
    · rw [h]; simp only [List.map_cons, List.map_nil, List.cons.injEq, and_true] at e
      simp only [row4, e.1, e.2.1, e.2.2.1, e.2.2.2]
  rw [hq, processMatrix4, key _ _ _ _ _ _ _ _ _ h1, key _ _ _ _ _ _ _ _ _ h2, key _ _ _ _ _ _ _ _ _ h3, key _ _ _ _ _ _ _ _ _ h4]
  simp only
  rw [scaleLength_eq hs]
  refine ⟨_, rfl, ?_, ?_, ?_⟩
  · ext i j; fin_cases i <;> fin_cases j <;> simp [rotPart, setPos]
  · ext j; fin_cases j <;> simp [Rot.posPart, setPos]
  · ext j; fin_cases j <;> simp [setPos]

/-- **C133** (matrices): a 3x3 matrix is the rotation part, a missing row is that of the identity. -/
theorem C133_matrix3 {n : Xml} (hn : lower n.name = "matrix3x3") {m : M3}
    (h1 : RowIn F n "row1" ["c1", "c2", "c3"] [1, 0, 0] [m 0 0, m 0 1, m 0 2])
    (h2 : RowIn F n "row2" ["c1", "c2", "c3"] [0, 1, 0] [m 1 0, m 1 1, m 1 2])
    (h3 : RowIn F n "row3" ["c1", "c2", "c3"] [0, 0, 1] [m 2 0, m 2 1, m 2 2]) :
    ∃ t, processPart F n = some t ∧ rotPart t = m ∧ Rot.posPart t = 0 ∧ t 3 = ![0, 0, 0, 1] := by
  have hq : processPart F n = (process3x3 F n).map block4 := by
    unfold processPart
    rw [hn]; simp
  have key : ∀ (name : String) (a b c a' b' c' : ℝ), RowIn F n name ["c1", "c2", "c3"] [a', b', c'] [a, b, c] →
      optRow (row3 F) n name ![a', b', c'] = some ![a, b, c] := by
    intro name a b c a' b' c' h
    unfold optRow
    rcases h with ⟨h, e⟩ | ⟨r, h, e⟩
    · rw [h]; simp only [List.cons.injEq, and_true] at e; obtain ⟨rfl, rfl, rfl⟩ := e; rfl
    · rw [h]; simp only [List.map_cons, List.map_nil, List.cons.injEq, and_true] at e
      simp only [row3, e.1, e.2.1, e.2.2]
  rw [hq, process3x3, key _ _ _ _ _ _ _ h1, key _ _ _ _ _ _ _ h2, key _ _ _ _ _ _ _ h3]
  refine ⟨_, rfl, ?_, ?_, ?_⟩
  · ext i j; fin_cases i <;> fin_cases j <;> simp [rotPart, block4]
  · ext j; fin_cases j <;> simp [Rot.posPart, block4]
  · ext j; fin_cases j <;> simp [block4]

/-- **C133** (unknown elements): an element of another name changes nothing. -/
theorem C133_unknown {n : Xml} (hn : lower n.name ∉ ["matrix4x4", "matrix3x3", "rollpitchyaw", "rpy", "quaternion", "quat", "translation", "trans", "dh"]) :
    processPart F n = some 1 := by
  simp only [List.mem_cons, List.not_mem_nil, or_false, not_or] at hn
  obtain ⟨h1, h2, h3, h4, h5, h6, h7, h8, h9⟩ := hn
  unfold processPart
  simp [h1, h2, h3, h4, h5, h6, h7, h8, h9]

theorem processParts_eq (l : List Xml) (t r : M4) : processParts F l t = some r ↔ ∃ ms, List.Forall₂ (fun n m => processPart F n = some m) l ms ∧ r = t * ms.prod := by
  induction l generalizing t with
  | nil => simp [processParts, eq_comm]
  | cons n l ih =>
      unfold processParts
      cases h : processPart F n with
      | none =>
          simp only [reduceCtorEq, false_iff, not_exists, not_and]
          intro ms hms
          cases hms with
          | cons h' _ => rw [h] at h'; simp at h'
      | some m =>
          simp only [ih]
          constructor
          · rintro ⟨ms, h1, rfl⟩
            exact ⟨m :: ms, .cons h h1, by rw [List.prod_cons, mul_assoc]⟩
          · rintro ⟨ms, h1, rfl⟩
            cases h1 with
            | cons h2 h3 =>
                rw [h] at h2
                simp only [Option.some.injEq] at h2
                exact ⟨_, h3, by rw [List.prod_cons, mul_assoc, h2]⟩

/-- **C133** (product): a `<Transform>` is the product of its parts in the order of the document; it is refused exactly if one of its parts is. -/
theorem C133_product {n : Xml} (hn : lower n.name = "transform") (t : M4) :
    processTransform F (some n) = some t ↔ ∃ ms, List.Forall₂ (fun n m => processPart F n = some m) n.children ms ∧ t = ms.prod := by
  unfold processTransform
  simp only [hn, beq_self_eq_true, if_true, processParts_eq, one_mul]

theorem isPose_mul {a b : M4} (ha : IsPose a) (hb : IsPose b) : IsPose (a * b) := by
  have la := ha.last
  have lb := hb.last
  constructor
  · have : (a * b).submatrix Fin.castSucc Fin.castSucc = a.submatrix Fin.castSucc Fin.castSucc * b.submatrix Fin.castSucc Fin.castSucc := by
      ext i j
      fin_cases j <;> simp [Matrix.mul_apply, Fin.sum_univ_three, Fin.sum_univ_four, lb]
    rw [this]
    exact mul_mem ha.1 hb.1
  · ext j
    fin_cases j <;> simp [Matrix.mul_apply, Fin.sum_univ_four, la, lb]

theorem isPose_one : IsPose (1 : M4) := by
  constructor
  · have : (1 : M4).submatrix Fin.castSucc Fin.castSucc = 1 := by
      ext i j; fin_cases i <;> fin_cases j <;> simp
    rw [this]; exact one_mem _
  · ext j; fin_cases j <;> simp; rfl

theorem isPose_of_parts {t : M4} (hr : rotPart t = 1) (hl : t 3 = ![0, 0, 0, 1]) : IsPose t :=
  ⟨by change rotPart t ∈ _; rw [hr]; exact one_mem _, hl⟩

theorem part_isPose {n : Xml} {m : M4} (h : processPart F n = some m)
    (hm : lower n.name ∈ ["matrix4x4", "matrix3x3", "quaternion", "quat"] → IsPose m) : IsPose m := by
  by_cases c0 : lower n.name ∈ ["matrix4x4", "matrix3x3", "quaternion", "quat"]
  · exact hm c0
  by_cases c1 : lower n.name = "rollpitchyaw" ∨ lower n.name = "rpy"
  · have hq : processPart F n = processRpy F n := by
      unfold processPart
      rcases c1 with h | h <;> rw [h] <;> simp
    rw [hq, processRpy] at h
    have hp : ∀ r p y, IsPose (rpy2eigen4f r p y) := by
      intro r p y
      obtain ⟨h1, -, -, h4, -⟩ := C68_from_rpy ⟨0, 0, 0, r, p, y⟩
      simp only at h4
      rw [h4]; exact h1
    split at h
    · split at h
      · simp at h
      · split at h <;> simp only [Option.some.injEq] at h <;> rw [← h] <;> exact hp _ _ _
    · simp at h
  by_cases c2 : lower n.name = "translation" ∨ lower n.name = "trans"
  · have hq : processPart F n = processTranslation F n := by
      unfold processPart
      rcases c2 with h | h <;> rw [h] <;> simp
    rw [hq, processTranslation] at h
    have hp : ∀ x y z, IsPose (setPos 1 x y z) := by
      intro x y z
      apply isPose_of_parts
      · ext i j; fin_cases i <;> fin_cases j <;> simp [rotPart, setPos]
      · ext j; fin_cases j <;> simp [setPos]
    have hp2 : ∀ x y z x' y' z', setPos (setPos 1 x y z) x' y' z' = setPos 1 x' y' z' := by
      intro x y z x' y' z'
      ext i j; fin_cases i <;> fin_cases j <;> simp [setPos]
    split at h
    · unfold scaleLength at h
      split at h
      · split at h
        · simp at h
        · split at h
          · simp only [Option.some.injEq] at h; rw [← h, hp2]; exact hp _ _ _
          · simp only [Option.some.injEq] at h; rw [← h]; exact hp _ _ _
      · simp only [Option.some.injEq] at h; rw [← h]; exact hp _ _ _
    · simp at h
  by_cases c3 : lower n.name = "dh"
  · have hq : processPart F n = (processDH F n).map DH.transformation := by
      unfold processPart
      rw [c3]; simp
    rw [hq] at h
    simp only [Option.map_eq_some_iff] at h
    obtain ⟨d, -, rfl⟩ := h
    exact (dh_spec d).2.2
  · rw [C133_unknown (by simp only [List.mem_cons, List.not_mem_nil, or_false, not_or] at *; tauto)] at h
    simp only [Option.some.injEq] at h
    rw [← h]; exact isPose_one

/-- **C133** (rigid): a `<Transform>` is a rigid motion if the matrices and quaternions in it are; translations, angles and Denavit-Hartenberg parameters
need no condition. -/
theorem C133_rigid {n : Xml} (hn : lower n.name = "transform") {t : M4} (h : processTransform F (some n) = some t)
    (hm : ∀ c ∈ n.children, lower c.name ∈ ["matrix4x4", "matrix3x3", "quaternion", "quat"] → ∀ m, processPart F c = some m → IsPose m) : IsPose t := by
  obtain ⟨ms, h1, rfl⟩ := (C133_product hn t).1 h
  clear h
  generalize n.children = l at *
  induction h1 with
  | nil => exact isPose_one
  | cons h2 _ ih =>
      rw [List.prod_cons]
      refine isPose_mul (part_isPose h2 fun hc => hm _ (by simp) hc _ h2) (ih ?_)
      intro c hc; exact hm c (by simp [hc])

/-- **C133** (node): the transformation of a robot node is that of its first `<Transform>`, the identity without one. -/
theorem C133_node {n : Xml} (hn : lower n.name ≠ "transform") :
    nodeTransform F n = match n.children.find? (fun c => lower c.name == "transform") with
      | none => some 1
      | some t => processTransform F (some t) := by
  have hp : ∀ c, n.children.find? (fun c => lower c.name == "transform") = some c → processTransform F (some n) = processTransform F (some c) := by
    intro c hc
    have h1 := List.find?_some hc
    simp only [beq_iff_eq] at h1
    have h2 : n.firstNode "transform" = some c := by
      unfold Xml.firstNode same
      rw [← hc]
      congr 1
    unfold processTransform
    simp only [beq_iff_eq, hn, if_false, h2, h1, if_true]
  have key : ∀ (l : List Xml) (t : Option M4), l.foldl (nodeStep F n) t =
      if (l.find? (fun c => lower c.name == "transform")).isSome then t.bind fun _ => processTransform F (some n) else t := by
    intro l
    induction l with
    | nil => intro t; rfl
    | cons c l ih =>
        intro t
        rw [List.foldl_cons, ih, List.find?_cons, nodeStep]
        cases hc : lower c.name == "transform" with
        | false => simp only [Bool.false_eq_true, if_false]
        | true =>
            cases l.find? (fun c => lower c.name == "transform") <;> cases t <;> simp
            cases processTransform F (some n) <;> rfl
  unfold nodeTransform
  rw [key]
  cases hc : n.children.find? (fun c => lower c.name == "transform") with
  | none => rfl
  | some c => simp only; exact hp c hc

/-- **C133** (second transformation, refuted): further `<Transform>` elements of a node are not applied, and there is no error. -/
theorem C133_second_false : ∃ (F : String → Option ℝ) (n a b : Xml) (ta tb : M4), n.children = [a, b] ∧ processTransform F (some a) = some ta ∧ processTransform F (some b) = some tb ∧
    nodeTransform F n = some ta ∧ ta ≠ ta * tb := by
  let a : Xml := { name := "Transform" }
  let b : Xml := { name := "Transform", children := [{ name := "Translation", attrs := [("x", "1"), ("y", "0"), ("z", "0")] }] }
  have hb : processTransform exampleF (some b) = some (1 * setPos 1 1 0 0) := by
    simp [b, processTransform, processParts, processPart, processTranslation, getFloat, Xml.firstAttr, same, lower, exampleF, scaleLength, hasUnits]
  refine ⟨exampleF, { name := "RobotNode", children := [a, b] }, a, b, 1, 1 * setPos 1 1 0 0, rfl, ?_, hb, ?_, ?_⟩
  · simp [a, processTransform, processParts, lower]
  · rw [C133_node (by decide)]
    simp [a, lower, processTransform, processParts]
  · intro h
    have := congrFun (congrFun h 0) 3
    simp [setPos] at this

/-- **C133** (units, refuted): a unit of a length is optional, but a translation that gives a unit of an angle only is refused. -/
theorem C133_units_false : ∃ n : Xml, n.name = "Translation" ∧ processPart exampleF n = none ∧
    ∃ m, processPart exampleF { n with attrs := n.attrs.filter fun p => p.1 ≠ "unitsAngle" } = some m := by
  refine ⟨{ name := "Translation", attrs := [("x", "1"), ("y", "0"), ("z", "0"), ("unitsAngle", "deg")] }, rfl, ?_, ?_⟩
  · simp [processPart, processTranslation, getFloat, Xml.firstAttr, same, lower, exampleF, scaleLength, hasUnits, getUnits, unitsAttr]
  · simp [processPart, processTranslation, getFloat, Xml.firstAttr, same, lower, exampleF, scaleLength, hasUnits]

/-- **C133** (round trip): a matrix that is written with `toXML` is read with every entry as it was printed: exactly, if numbers survive printing and reading. -/
theorem C133_roundtrip {S : ℝ → String} {r : ℝ → ℝ} (hr : ∀ x, F (S x) = some (r x)) (m : M4) : processPart F (matrixToXml S m) = some (m.map r) := by
  have hn : lower (matrixToXml S m).name = "matrix4x4" := by simp [matrixToXml, lower]
  have hs : LengthIn (matrixToXml S m) (1 / 1000) := .inr ⟨"mm", by simp [matrixToXml, getUnits, unitsAttr, Xml.firstAttr, same, lower, unitsOk, Units.isLength, Units.isMillimeter], by simp [IsUnit, unitTable]⟩
  obtain ⟨t, h1, h2, h3, h4⟩ := C133_matrix4 (F := F) (m := m.map r) hn hs
    (.inr ⟨_, by simp [matrixToXml, Xml.firstNode, same, lower]; rfl, by simp [getFloat, Xml.firstAttr, same, lower, hr]⟩)
    (.inr ⟨_, by simp [matrixToXml, Xml.firstNode, same, lower]; rfl, by simp [getFloat, Xml.firstAttr, same, lower, hr]⟩)
    (.inr ⟨_, by simp [matrixToXml, Xml.firstNode, same, lower]; rfl, by simp [getFloat, Xml.firstAttr, same, lower, hr]⟩)
    (.inr ⟨_, by simp [matrixToXml, Xml.firstNode, same, lower]; rfl, by simp [getFloat, Xml.firstAttr, same, lower, hr]⟩)
  rw [h1, Option.some.injEq]
  norm_num at h3
  ext i j
  have e2 := fun i j => congrFun (congrFun h2 i) j
  have e3 := fun j => congrFun h3 j
  fin_cases i
  · fin_cases j
    · exact e2 0 0
    · exact e2 0 1
    · exact e2 0 2
    · exact e3 0
  · fin_cases j
    · exact e2 1 0
    · exact e2 1 1
    · exact e2 1 2
    · exact e3 1
  · fin_cases j
    · exact e2 2 0
    · exact e2 2 1
    · exact e2 2 2
    · exact e3 2
  · exact congrFun h4 j

end Simox.Rio
