import Verif.Rio.LimitProps

/-!
# C135: physical quantities, and C136: lists and joints
-/

namespace Simox.Rio

open Rot Matrix

variable {F : String → Option ℝ}

theorem time_size {u : Units} {s : ℝ} (h : IsUnit u .time s) :
    (u.isMinute = false ∧ u.isHour = false ∧ s = 1) ∨ (u.isMinute = true ∧ u.isHour = false ∧ s = 60) ∨ (u.isMinute = false ∧ u.isHour = true ∧ s = 3600) := by
  simp only [IsUnit, unitTable, List.mem_cons, Prod.mk.injEq, List.not_mem_nil, or_false, reduceCtorEq, false_and, and_false, false_or, true_and] at h
  rcases h with ⟨rfl, rfl⟩ | ⟨rfl, rfl⟩ | ⟨rfl, rfl⟩ | ⟨rfl, rfl⟩ | ⟨rfl, rfl⟩ | ⟨rfl, rfl⟩ | ⟨rfl, rfl⟩
  · exact .inl ⟨by decide, by decide, rfl⟩
  · exact .inl ⟨by decide, by decide, rfl⟩
  · exact .inl ⟨by decide, by decide, rfl⟩
  · exact .inr (.inl ⟨by decide, by decide, rfl⟩)
  · exact .inr (.inl ⟨by decide, by decide, rfl⟩)
  · exact .inr (.inr ⟨by decide, by decide, rfl⟩)
  · exact .inr (.inr ⟨by decide, by decide, rfl⟩)

theorem length_size {u : Units} {s : ℝ} (h : IsUnit u .length s) : (u.isMillimeter = false ∧ s = 1) ∨ (u.isMillimeter = true ∧ s = 1 / 1000) := by
  simp only [IsUnit, unitTable, List.mem_cons, Prod.mk.injEq, List.not_mem_nil, or_false, reduceCtorEq, false_and, and_false, false_or, true_and] at h
  rcases h with ⟨rfl, rfl⟩ | ⟨rfl, rfl⟩ | ⟨rfl, rfl⟩ | ⟨rfl, rfl⟩
  · exact .inl ⟨by decide, rfl⟩
  · exact .inl ⟨by decide, rfl⟩
  · exact .inr ⟨by decide, rfl⟩
  · exact .inr ⟨by decide, rfl⟩

theorem angle_size {u : Units} {s : ℝ} (h : IsUnit u .angle s) : (u.isDegree = false ∧ s = 1) ∨ (u.isDegree = true ∧ s = Real.pi / 180) := by
  simp only [IsUnit, unitTable, List.mem_cons, Prod.mk.injEq, List.not_mem_nil, or_false, reduceCtorEq, false_and, and_false, true_and] at h
  rcases h with ⟨rfl, rfl⟩ | ⟨rfl, rfl⟩ | ⟨rfl, rfl⟩ | ⟨rfl, rfl⟩
  · exact .inl ⟨by decide, rfl⟩
  · exact .inl ⟨by decide, rfl⟩
  · exact .inr ⟨by decide, rfl⟩
  · exact .inr ⟨by decide, rfl⟩

theorem weight_size {u : Units} {s : ℝ} (h : IsUnit u .weight s) :
    (u.isGram = false ∧ u.isTon = false ∧ s = 1) ∨ (u.isGram = true ∧ u.isTon = false ∧ s = 1 / 1000) ∨ (u.isGram = false ∧ u.isTon = true ∧ s = 1000) := by
  simp only [IsUnit, unitTable, List.mem_cons, Prod.mk.injEq, List.not_mem_nil, or_false, reduceCtorEq, false_and, and_false, false_or, true_and] at h
  rcases h with ⟨rfl, rfl⟩ | ⟨rfl, rfl⟩ | ⟨rfl, rfl⟩ | ⟨rfl, rfl⟩ | ⟨rfl, rfl⟩ | ⟨rfl, rfl⟩
  all_goals first
    | exact .inl ⟨by decide, by decide, rfl⟩
    | exact .inr (.inl ⟨by decide, by decide, rfl⟩)
    | exact .inr (.inr ⟨by decide, by decide, rfl⟩)

/-- **C135** (velocity): the maximal velocity of a joint is stored in meters or radian per second, whatever the units; seconds, meters and radian if they are not
given, the last unit of a kind if several are. -/
theorem C135_velocity {n : Xml} {v st sl sa : ℝ} (hv : getFloat F n "value" = some v) (ht : LastOf n .time 1 st) (hl : LastOf n .length 1 sl)
    (ha : LastOf n .angle 1 sa) : maxVelocity F n = some (v * sl * sa / st) := by
  have hT := lastOf_unit (p := Units.isTime) (standard := "sec") (fun u => (C132_recognised u).2.2.2.1) (by simp [IsUnit, unitTable]) ht
  have hL := lastOf_unit (p := Units.isLength) (standard := "m") (fun u => (C132_recognised u).2.1) (by simp [IsUnit, unitTable]) hl
  have hA := lastOf_unit (p := Units.isAngle) (standard := "rad") (fun u => (C132_recognised u).1) (by simp [IsUnit, unitTable]) ha
  unfold maxVelocity
  simp only [hv, Option.some.injEq]
  rcases time_size hT with ⟨t1, t2, rfl⟩ | ⟨t1, t2, rfl⟩ | ⟨t1, t2, rfl⟩ <;> rcases length_size hL with ⟨l1, rfl⟩ | ⟨l1, rfl⟩ <;>
    rcases angle_size hA with ⟨a1, rfl⟩ | ⟨a1, rfl⟩ <;> simp only [t1, t2, l1, a1, Bool.false_eq_true, if_false, if_true] <;> ring

example : ∃ (n : Xml) (v st sl sa : ℝ), getFloat exampleF n "value" = some v ∧ LastOf n .time 1 st ∧ LastOf n .length 1 sl ∧ LastOf n .angle 1 sa ∧ sa ≠ 1 ∧ st ≠ 1 := by
  refine ⟨{ name := "MaxVelocity", attrs := [("value", "90"), ("unitsAngle", "deg"), ("unitsTime", "min")] }, 90, 60, 1, Real.pi / 180,
    by simp [getFloat, Xml.firstAttr, same, lower, exampleF], .inl ⟨"min", by decide, by simp [IsUnit, unitTable]⟩, .inr ⟨?_, rfl⟩,
    .inl ⟨"deg", by decide, by simp [IsUnit, unitTable]⟩, ?_, by norm_num⟩
  · have : getAllUnits { name := "MaxVelocity", attrs := [("value", "90"), ("unitsAngle", "deg"), ("unitsTime", "min")] } = ["min", "deg"] ∨
        getAllUnits { name := "MaxVelocity", attrs := [("value", "90"), ("unitsAngle", "deg"), ("unitsTime", "min")] } = ["deg", "min"] := by decide
    intro u hu s
    rcases this with e | e <;> rw [e] at hu <;> simp only [List.mem_cons, List.not_mem_nil, or_false] at hu <;> rcases hu with rfl | rfl <;> simp [IsUnit, unitTable]
  · have := Real.pi_le_four
    intro h
    linarith

/-- **C135** (acceleration): the maximal acceleration is stored in meters or radian per second squared. -/
theorem C135_acceleration {n : Xml} {v st sl sa : ℝ} (hv : getFloat F n "value" = some v) (ht : LastOf n .time 1 st) (hl : LastOf n .length 1 sl)
    (ha : LastOf n .angle 1 sa) : maxAcceleration F n = some (v * sl * sa / st ^ 2) := by
  have hT := lastOf_unit (p := Units.isTime) (standard := "sec") (fun u => (C132_recognised u).2.2.2.1) (by simp [IsUnit, unitTable]) ht
  have hL := lastOf_unit (p := Units.isLength) (standard := "m") (fun u => (C132_recognised u).2.1) (by simp [IsUnit, unitTable]) hl
  have hA := lastOf_unit (p := Units.isAngle) (standard := "rad") (fun u => (C132_recognised u).1) (by simp [IsUnit, unitTable]) ha
  unfold maxAcceleration
  simp only [hv, Option.some.injEq]
  rcases time_size hT with ⟨t1, t2, rfl⟩ | ⟨t1, t2, rfl⟩ | ⟨t1, t2, rfl⟩ <;> rcases length_size hL with ⟨l1, rfl⟩ | ⟨l1, rfl⟩ <;>
    rcases angle_size hA with ⟨a1, rfl⟩ | ⟨a1, rfl⟩ <;> simp only [t1, t2, l1, a1, Bool.false_eq_true, if_false, if_true] <;> ring

/-- **C135** (torque, partial): a torque in newton meters is stored as given. Missing: torques in newton millimeters. -/
theorem C135_torque_partial {n : Xml} {v : ℝ} (hv : getFloat F n "value" = some v) (hl : LastOf n .length 1 1) : maxTorque F n = some v := by
  have hL := lastOf_unit (p := Units.isLength) (standard := "m") (fun u => (C132_recognised u).2.1) (by simp [IsUnit, unitTable]) hl
  unfold maxTorque
  simp only [hv, Option.some.injEq]
  rcases length_size hL with ⟨l1, -⟩ | ⟨l1, h⟩
  · simp [l1]
  · norm_num at h

/-- **C135** (torque, refuted): a torque in newton millimeters is stored a million times too large. -/
theorem C135_torque_false {n : Xml} {v : ℝ} (hv : getFloat F n "value" = some v) (hl : LastOf n .length 1 (1 / 1000)) : maxTorque F n = some (v * (1 / 1000) * 1000000) := by
  have hL := lastOf_unit (p := Units.isLength) (standard := "m") (fun u => (C132_recognised u).2.1) (by simp [IsUnit, unitTable]) hl
  unfold maxTorque
  simp only [hv, Option.some.injEq]
  rcases length_size hL with ⟨l1, h⟩ | ⟨l1, -⟩
  · norm_num at h
  · simp only [l1, if_true]; ring

example : ∃ (n : Xml) (v : ℝ), v ≠ 0 ∧ getFloat exampleF n "value" = some v ∧ LastOf n .length 1 (1 / 1000) :=
  ⟨{ name := "MaxTorque", attrs := [("value", "90"), ("unitsLength", "mm")] }, 90, by norm_num, by simp [getFloat, Xml.firstAttr, same, lower, exampleF],
    .inl ⟨"mm", by decide, by simp [IsUnit, unitTable]⟩⟩

/-- **C135** (mass): the mass is stored in kilogram; it needs a unit of a weight, and is zero if there is no such element. -/
theorem C135_mass (n : Xml) :
    (n.firstNode "mass" = none → readMass F n = some 0) ∧
    ∀ m, n.firstNode "mass" = some m → ∀ r, readMass F n = some r ↔ ∃ v u s, getFloat F m "value" = some v ∧ getUnits m .weight = some u ∧ IsUnit u .weight s ∧ r = v * s := by
  refine ⟨fun h => by unfold readMass; rw [h], fun m hm r => ?_⟩
  unfold readMass
  simp only [hm]
  cases hv : getFloat F m "value" with
  | none => simp
  | some v =>
  cases hu : getUnits m .weight with
  | none => simp
  | some u =>
      simp only [Option.some.injEq, ↓existsAndEq, true_and]
      obtain ⟨_, -, -, h⟩ := (C132_attribute m .weight u).1 hu
      obtain ⟨s, hs⟩ := h .weight rfl
      have : (if u.isTon = true then (if u.isGram = true then v * 0.001 else v) * 1000 else if u.isGram = true then v * 0.001 else v) = v * s := by
        rcases weight_size hs with ⟨h1, h2, rfl⟩ | ⟨h1, h2, rfl⟩ | ⟨h1, h2, rfl⟩ <;> simp only [h1, h2, Bool.false_eq_true, if_false, if_true] <;> ring
      rw [this]
      constructor
      · rintro rfl; exact ⟨s, hs, rfl⟩
      · rintro ⟨s', hs', rfl⟩; rw [(C132_unique hs hs').2]

/-- **C135** (centre of mass): the centre of mass is stored in millimeters, missing coordinates are zero; without a unit the numbers are millimeters. -/
theorem C135_com {c : Xml} {x y z s : ℝ} (hx : getOptFloat F c "x" 0 = some x) (hy : getOptFloat F c "y" 0 = some y) (hz : getOptFloat F c "z" 0 = some z) (hs : LengthIn c s) :
    readComAt F c = some ((1000 * s) • ![x, y, z]) := by
  unfold readComAt
  simp only [hx, hy, hz]
  rcases hs with ⟨h, rfl⟩ | ⟨u, h, hu⟩
  · rw [h]; norm_num
  · rw [hasUnits_of h, if_pos rfl, h]
    simp only [Option.some.injEq]
    rcases isMeter_size hu with ⟨h1, rfl⟩ | ⟨h1, rfl⟩
    · rw [h1, if_pos rfl]; ext i; simp [mul_comm]
    · rw [h1]; norm_num

/-- **C135** (inertia): the inertia matrix is stored in kg m²; zero if there is no such element. -/
theorem C135_inertia (n : Xml) :
    (n.firstNode "inertiamatrix" = none → readInertia F n = some 0) ∧
    ∀ i m sw sl, n.firstNode "inertiamatrix" = some i → process3x3 F i = some m → LastOf i .weight 1 sw → LastOf i .length 1 sl →
      readInertia F n = some ((sw * sl ^ 2) • m) := by
  refine ⟨fun h => by unfold readInertia; rw [h], fun i m sw sl hi hm hw hl => ?_⟩
  have hW := lastOf_unit (p := Units.isWeight) (standard := "kg") (fun u => (C132_recognised u).2.2.1) (by simp [IsUnit, unitTable]) hw
  have hL := lastOf_unit (p := Units.isLength) (standard := "m") (fun u => (C132_recognised u).2.1) (by simp [IsUnit, unitTable]) hl
  unfold readInertia
  simp only [hi, hm, Option.some.injEq]
  congr 1
  rcases weight_size hW with ⟨t1, t2, rfl⟩ | ⟨t1, t2, rfl⟩ | ⟨t1, t2, rfl⟩ <;> rcases length_size hL with ⟨l1, rfl⟩ | ⟨l1, rfl⟩ <;>
    simp only [t1, t2, l1, Bool.false_eq_true, if_false, if_true] <;> norm_num

/-- **C135** (physics): the physical properties are read as the parts say; the kind of simulation keeps its value if the text is not known, and the objects with which
collisions are ignored are added to those before. -/
theorem C135_physics {n : Xml} {p q : Physics} (h : processPhysics F n p = some q) :
    readMass F n = some q.mass ∧ readInertia F n = some q.inertia ∧ readFriction F n = some q.friction ∧
    (∃ l, (n.children.filter fun c => same c.name "ignorecollision").map (fun c => c.firstAttr "name") = l.map some ∧ q.ignore = p.ignore ++ l) ∧
    readSim n p.sim = some q.sim ∧
    (n.firstNode "com" = none → q.com = p.com ∧ q.visuCenter = p.visuCenter) ∧
    (∀ c, n.firstNode "com" = some c → (q.visuCenter = true ∧ q.com = p.com ∧ (c.firstAttr "location").map lower = some "visualizationbboxcenter") ∨
      (q.visuCenter = false ∧ readComAt F c = some q.com ∧ ∀ l, c.firstAttr "location" = some l → lower l = "joint" ∨ lower l = "custom")) := by
  unfold processPhysics at h
  cases h1 : readMass F n with
  | none => rw [h1] at h; simp at h
  | some m =>
  cases h2 : readCom F n p with
  | none => rw [h1, h2] at h; simp at h
  | some p' =>
  cases h3 : readInertia F n with
  | none => rw [h1, h2, h3] at h; simp at h
  | some i =>
  cases h4 : readIgnore n with
  | none => rw [h1, h2, h3, h4] at h; simp at h
  | some l =>
  cases h5 : readSim n p.sim with
  | none => rw [h1, h2, h3, h4, h5] at h; simp at h
  | some s =>
  cases h6 : readFriction F n with
  | none => rw [h1, h2, h3, h4, h5, h6] at h; simp at h
  | some f =>
  rw [h1, h2, h3, h4, h5, h6] at h
  simp only [Option.some.injEq] at h
  have hp : p'.ignore = p.ignore ∧ (n.firstNode "com" = none → p'.com = p.com ∧ p'.visuCenter = p.visuCenter) ∧
      (∀ c, n.firstNode "com" = some c → (p'.visuCenter = true ∧ p'.com = p.com ∧ (c.firstAttr "location").map lower = some "visualizationbboxcenter") ∨
      (p'.visuCenter = false ∧ readComAt F c = some p'.com ∧ ∀ l, c.firstAttr "location" = some l → lower l = "joint" ∨ lower l = "custom")) := by
    unfold readCom at h2
    cases hc : n.firstNode "com" with
    | none =>
        rw [hc] at h2
        simp only [Option.some.injEq] at h2
        subst h2
        exact ⟨rfl, fun _ => ⟨rfl, rfl⟩, fun c hc => by simp at hc⟩
    | some c =>
        rw [hc] at h2
        dsimp only at h2
        have hl : ∀ loc : String, (if loc == "visualizationbboxcenter" then some { p with visuCenter := true }
            else if loc == "joint" || loc == "custom" then (readComAt F c).map fun v => { p with visuCenter := false, com := v } else none) = some p' →
            (loc = "visualizationbboxcenter" ∧ p' = { p with visuCenter := true }) ∨
            ((loc = "joint" ∨ loc = "custom") ∧ ∃ v, readComAt F c = some v ∧ p' = { p with visuCenter := false, com := v }) := by
          intro loc h
          by_cases e1 : loc = "visualizationbboxcenter"
          · rw [if_pos (by simpa using e1)] at h
            simp only [Option.some.injEq] at h
            exact .inl ⟨e1, h.symm⟩
          · rw [if_neg (by simpa using e1)] at h
            by_cases e2 : loc = "joint" ∨ loc = "custom"
            · rw [if_pos (by simpa using e2), Option.map_eq_some_iff] at h
              obtain ⟨v, h1, h2⟩ := h
              exact .inr ⟨e2, v, h1, h2.symm⟩
            · rw [if_neg (by simpa using e2)] at h; simp at h
        have hp' := hl _ h2
        cases hloc : c.firstAttr "location" with
        | none =>
            rw [hloc] at hp'
            simp only [String.reduceEq, false_and, or_true, true_and, false_or] at hp'
            obtain ⟨v, hv, rfl⟩ := hp'
            exact ⟨rfl, by simp, fun c' hc' => by
              simp only [Option.some.injEq] at hc'
              subst hc'
              exact .inr ⟨rfl, hv, by simp [hloc]⟩⟩
        | some l =>
            rw [hloc] at hp'
            dsimp only at hp'
            rcases hp' with ⟨e, rfl⟩ | ⟨e, v, hv, rfl⟩
            · exact ⟨rfl, by simp, fun c' hc' => by
                simp only [Option.some.injEq] at hc'
                subst hc'
                exact .inl ⟨rfl, rfl, by rw [hloc]; simp [e]⟩⟩
            · exact ⟨rfl, by simp, fun c' hc' => by
                simp only [Option.some.injEq] at hc'
                subst hc'
                exact .inr ⟨rfl, hv, by rw [hloc]; simpa using e⟩⟩
  have hig : (n.children.filter fun c => same c.name "ignorecollision").map (fun c => c.firstAttr "name") = l.map some := by
    unfold readIgnore at h4
    generalize (n.children.filter fun c => same c.name "ignorecollision") = L at h4
    clear h h2 hp
    induction L generalizing l with
    | nil => simp at h4; simp [h4]
    | cons a L ih =>
        rw [List.mapM_cons] at h4
        cases ha : a.firstAttr "name" with
        | none => simp [ha] at h4
        | some t =>
            cases hL : List.mapM (fun c : Xml => c.firstAttr "name") L with
            | none => simp [ha, hL] at h4
            | some r =>
                simp [ha, hL] at h4
                rw [List.map_cons, ha, ih r hL, ← h4]; rfl
  subst h
  exact ⟨rfl, rfl, rfl, ⟨l, hig, by rw [← hp.1]⟩, rfl, hp.2.1, hp.2.2⟩

/-- **C135** (configurations, partial): the value of a joint of a configuration is in radian or millimeters, if its unit is not the meter. Missing: meters. -/
theorem C135_configuration_partial {n : Xml} (hn : lower n.name = "node") {name : String} (hname : processName n true = some name) (h0 : name ≠ "") {v : ℝ}
    (hv : getFloat F n "value" = some v) {u : Units} (hu : getUnits n .ignore = some u) :
    (∀ s, IsUnit u .angle s → processConfigEntry F n = some (name, v * s)) ∧ (IsUnit u .length (1 / 1000) → processConfigEntry F n = some (name, v)) := by
  have e : processConfigEntry F n = some (name, if u.isDegree then v / 180 * Real.pi else if u.isMeter then v / 1000 else v) := by
    unfold processConfigEntry
    simp only [hn, beq_self_eq_true, if_true, hname, h0, if_false, hv, hu]
  rw [e]
  constructor
  · intro s hs
    have hm : u.isMeter = false := by
      simp only [IsUnit, unitTable, List.mem_cons, Prod.mk.injEq, List.not_mem_nil, or_false, reduceCtorEq, false_and, and_false, true_and] at hs
      rcases hs with ⟨rfl, rfl⟩ | ⟨rfl, rfl⟩ | ⟨rfl, rfl⟩ | ⟨rfl, rfl⟩ <;> decide
    rcases angle_size hs with ⟨h1, rfl⟩ | ⟨h1, rfl⟩
    · simp [h1, hm]
    · simp only [h1, if_true, Option.some.injEq, Prod.mk.injEq, true_and]; ring
  · intro hs
    have hd : u.isDegree = false := by
      simp only [IsUnit, unitTable, List.mem_cons, Prod.mk.injEq, List.not_mem_nil, or_false, reduceCtorEq, false_and, and_false, false_or, true_and] at hs
      rcases hs with ⟨rfl, -⟩ | ⟨rfl, -⟩ | ⟨rfl, -⟩ | ⟨rfl, -⟩ <;> decide
    rcases isMeter_size hs with ⟨-, h⟩ | ⟨h1, -⟩
    · norm_num at h
    · simp [hd, h1]

/-- **C135** (configurations, refuted): a value in meters is divided by 1000 instead of multiplied: 2 m are stored as 0.002 mm. -/
theorem C135_configuration_false : ∃ (n : Xml) (v : ℝ), n.firstAttr "value" = some "2" ∧ n.firstAttr "units" = some "m" ∧ processConfigEntry exampleF n = some ("joint", v) ∧
    v = 2 / 1000 ∧ v ≠ 2 * 1000 := by
  refine ⟨{ name := "Node", attrs := [("name", "joint"), ("value", "2"), ("units", "m")] }, 2 / 1000, by decide, by decide, ?_, rfl, by norm_num⟩
  have h1 : lower "Node" = "node" := by decide
  have h2 : processName { name := "Node", attrs := [("name", "joint"), ("value", "2"), ("units", "m")] } true = some "joint" := by decide
  have h3 : getUnits { name := "Node", attrs := [("name", "joint"), ("value", "2"), ("units", "m")] } .ignore = some "m" := by decide
  have h4 : getFloat exampleF { name := "Node", attrs := [("name", "joint"), ("value", "2"), ("units", "m")] } "value" = some 2 := by
    simp [getFloat, Xml.firstAttr, same, lower, exampleF]
  have h5 : Units.isDegree "m" = false := by decide
  have h6 : Units.isMeter "m" = true := by decide
  unfold processConfigEntry
  simp [h1, h2, h3, h4, h5, h6]

end Simox.Rio
