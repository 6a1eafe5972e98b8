import Verif.Gpl.ConeLemmas

/-!
# C109: friction cones
-/

namespace Simox.Gpl

open Matrix Jac Rot Spec

/-- **C109 (cone).** For a contact with a normal other than zero and a positive force, `computeConePoints`
appends just as many points as the cone has samples, leaving what was stored before. Each has a unit
direction; its position lies from the contact in this direction, at a distance proportional to the force
and the unit force, the same for all. All directions make the same angle of 45° with the normal and they
are evenly spread around it: two of them, `i` and `j`, enclose an angle with the cosine
`1/2 + 1/2 cos(2π(i-j)/samples)`. The variant without directions stores the same positions. -/
theorem C109_cone (k : ℕ) (μ u : ℝ) (hu : 0 < u) (c : ContactPoint) (hn : c.n ≠ 0) (hf : 0 < c.force)
    (store : List ContactPoint) :
    ∃ cone : List ContactPoint, computeConePoints (ConeGen.new k μ u) c store = store ++ cone ∧ cone.length = k ∧
      (∀ d ∈ cone, d.n ⬝ᵥ d.n = 1 ∧ d.force = c.force ∧
        d.p = c.p + (Real.sqrt 2 * Real.cos (Real.arctan μ) * u * c.force) • d.n ∧
        d.n ⬝ᵥ c.n = Real.cos (Real.pi / 4) * Real.sqrt (c.n ⬝ᵥ c.n)) ∧
      (∀ (i j : ℕ) (a b : ContactPoint), cone[i]? = some a → cone[j]? = some b →
        a.n ⬝ᵥ b.n = 1 / 2 + 1 / 2 * Real.cos (2 * Real.pi * ((i : ℝ) - j) / k)) ∧
      computeConePositions (ConeGen.new k μ u) c (store.map (·.p)) = store.map (·.p) ++ cone.map (·.p) := by
  refine ⟨_, cone_eq k μ hu hn hf store, by simp, ?_, ?_, ?_⟩
  · intro d hd
    rw [List.mem_map] at hd
    obtain ⟨i, -, rfl⟩ := hd
    refine ⟨coneDir_unit hn _, rfl, add_comm _ _, ?_⟩
    change coneDir _ _ ⬝ᵥ c.n = _
    have hd := coneDir_normal hn (i * 2 * Real.pi / ((k : ℤ) : ℝ))
    generalize coneDir c.n (i * 2 * Real.pi / ((k : ℤ) : ℝ)) = v at *
    conv_lhs => rw [← smul_normalize hn]
    rw [dotProduct_smul, hd, smul_eq_mul, mul_comm, Real.cos_pi_div_four]
    congr 1
    have : Real.sqrt 2 * Real.sqrt 2 = 2 := Real.mul_self_sqrt (by norm_num)
    have h0 : Real.sqrt 2 ≠ 0 := by positivity
    rw [div_eq_div_iff h0 (by norm_num)]
    linarith
  · intro i j a b ha hb
    rw [List.getElem?_map, Option.map_eq_some_iff] at ha hb
    obtain ⟨i', hi, rfl⟩ := ha
    obtain ⟨j', hj, rfl⟩ := hb
    rw [List.getElem?_eq_some_iff] at hi hj
    obtain ⟨hi, hi'⟩ := hi
    obtain ⟨hj, hj'⟩ := hj
    rw [List.getElem_range] at hi' hj'
    subst hi' hj'
    change coneDir _ _ ⬝ᵥ coneDir _ _ = _
    rw [coneDir_dot hn]
    congr 3
    push_cast
    ring
  · rw [positions_eq, cone_eq k μ hu hn hf store, List.map_append]

/-- Not vacuous: a contact on the top of an object. -/
example : ∃ c : ContactPoint, c.n ≠ 0 ∧ 0 < c.force ∧ c.p = ![0, 0, 5] :=
  ⟨⟨![0, 0, 5], ![0, 0, 1], 1⟩, fun h => by have : (1 : ℝ) = 0 := congrFun h 2; norm_num at this, by norm_num, rfl⟩

/-- **C109 (Coulomb, partial).** For friction coefficients of 1 and more, the directions of the cone obey
Coulomb's law. Missing: the same for smaller coefficients, which is false (`C109_coulomb_false`), and that
directions on the boundary of the cone are reached for coefficients above 1 (only 45° is). -/
theorem C109_coulomb_partial (k : ℕ) (μ u : ℝ) (hμ : 1 ≤ μ) (hu : 0 < u) (c : ContactPoint)
    (hn : c.n ⬝ᵥ c.n = 1) (hf : 0 < c.force) :
    ∀ d ∈ computeConePoints (ConeGen.new k μ u) c [], Coulomb μ c.n d.n := by
  have hn0 : c.n ≠ 0 := by intro h; rw [h] at hn; simp at hn
  intro d hd
  rw [cone_eq k μ hu hn0 hf, List.nil_append, List.mem_map] at hd
  obtain ⟨i, -, rfl⟩ := hd
  have h1 := coneDir_normal hn0 (i * 2 * Real.pi / ((k : ℤ) : ℝ))
  have h2 := coneDir_unit hn0 (i * 2 * Real.pi / ((k : ℤ) : ℝ))
  rw [normalize_of_unit hn] at h1
  generalize coneDir c.n (i * 2 * Real.pi / ((k : ℤ) : ℝ)) = v at *
  refine ⟨?_, ?_⟩
  · change 0 ≤ v ⬝ᵥ c.n
    rw [h1]; positivity
  · change (v - (v ⬝ᵥ c.n) • c.n) ⬝ᵥ (v - (v ⬝ᵥ c.n) • c.n) ≤ (μ * (v ⬝ᵥ c.n)) ^ 2
    have e : (v - (v ⬝ᵥ c.n) • c.n) ⬝ᵥ (v - (v ⬝ᵥ c.n) • c.n) = v ⬝ᵥ v - (v ⬝ᵥ c.n) ^ 2 * (2 - c.n ⬝ᵥ c.n) := by
      simp only [sub_dotProduct, dotProduct_sub, smul_dotProduct, dotProduct_smul, smul_eq_mul, dotProduct_comm c.n v]
      ring
    rw [e, h2, hn, h1, mul_pow]
    have hs : (1 / Real.sqrt 2) ^ 2 = 1 / 2 := by rw [sq, sqrt2_sq]
    rw [hs]
    nlinarith

/-- **C109 (Coulomb, does not hold).** For every friction coefficient below 1, all directions of every cone
violate Coulomb's law: the tangential part is as large as the normal part, whatever the coefficient. -/
theorem C109_coulomb_false (k : ℕ) (μ u : ℝ) (h0 : 0 ≤ μ) (hμ : μ < 1) (hu : 0 < u) (c : ContactPoint)
    (hn : c.n ⬝ᵥ c.n = 1) (hf : 0 < c.force) :
    ∀ d ∈ computeConePoints (ConeGen.new k μ u) c [], ¬ Coulomb μ c.n d.n := by
  have hn0 : c.n ≠ 0 := by intro h; rw [h] at hn; simp at hn
  intro d hd
  rw [cone_eq k μ hu hn0 hf, List.nil_append, List.mem_map] at hd
  obtain ⟨i, -, rfl⟩ := hd
  have h1 := coneDir_normal hn0 (i * 2 * Real.pi / ((k : ℤ) : ℝ))
  have h2 := coneDir_unit hn0 (i * 2 * Real.pi / ((k : ℤ) : ℝ))
  rw [normalize_of_unit hn] at h1
  generalize coneDir c.n (i * 2 * Real.pi / ((k : ℤ) : ℝ)) = v at *
  rintro ⟨-, hc⟩
  have hc : (v - (v ⬝ᵥ c.n) • c.n) ⬝ᵥ (v - (v ⬝ᵥ c.n) • c.n) ≤ (μ * (v ⬝ᵥ c.n)) ^ 2 := hc
  have e : (v - (v ⬝ᵥ c.n) • c.n) ⬝ᵥ (v - (v ⬝ᵥ c.n) • c.n) = v ⬝ᵥ v - (v ⬝ᵥ c.n) ^ 2 * (2 - c.n ⬝ᵥ c.n) := by
    simp only [sub_dotProduct, dotProduct_sub, smul_dotProduct, dotProduct_smul, smul_eq_mul, dotProduct_comm c.n v]
    ring
  rw [e, h2, hn, h1, mul_pow] at hc
  have hs : (1 / Real.sqrt 2) ^ 2 = 1 / 2 := by rw [sq, sqrt2_sq]
  rw [hs] at hc
  nlinarith

/-- **C109 (what the generator reports).** The reported angle is the friction angle, and the reported radius
and height are those of a cone with this angle and sides of length `unitForce`: radius/height is the
friction coefficient. -/
theorem C109_reported (k : ℕ) (μ u : ℝ) (hu : 0 < u) :
    let g := ConeGen.new k μ u
    Real.tan g.frictionConeAngle = μ ∧ g.frictionConeRad / g.frictionConeHeight = μ ∧
    g.frictionConeRad ^ 2 + g.frictionConeHeight ^ 2 = u ^ 2 ∧ 0 < g.frictionConeHeight := by
  have hc := Real.cos_arctan_pos μ
  refine ⟨Real.tan_arctan μ, ?_, ?_, mul_pos hu hc⟩
  · change u * Real.sin (Real.arctan μ) / (u * Real.cos (Real.arctan μ)) = μ
    rw [mul_div_mul_left _ _ hu.ne', ← Real.tan_eq_sin_div_cos, Real.tan_arctan]
  · change (u * Real.sin (Real.arctan μ)) ^ 2 + (u * Real.cos (Real.arctan μ)) ^ 2 = u ^ 2
    have := Real.sin_sq_add_cos_sq (Real.arctan μ)
    linear_combination u ^ 2 * this

/-- **C109 (friction, does not hold).** The wrenches computed for a grasp do not depend on the friction
coefficient at all, nor on the unit force. -/
theorem C109_friction_false (k : ℕ) (μ μ' u u' : ℝ) (hu : 0 < u) (hu' : 0 < u') (contacts : List ContactPoint)
    (h : ∀ c ∈ contacts, c.n ≠ 0 ∧ 0 < c.force) (length : ℝ) :
    createWrenchPoints (conesOf (ConeGen.new k μ u) contacts) 0 length =
      createWrenchPoints (conesOf (ConeGen.new k μ' u') contacts) 0 length := by
  rw [conesOf_eq, conesOf_eq, createWrenchPoints, createWrenchPoints, List.map_flatMap, List.map_flatMap]
  have key : ∀ c ∈ contacts, ∀ (μ u : ℝ), 0 < u →
      (computeConePoints (ConeGen.new k μ u) c []).map (wrenchOf 0 (torqueFactor length)) =
      (List.range (k : ℤ).toNat).map fun (i : ℕ) =>
        (coneDir c.n (i * 2 * Real.pi / (k : ℤ)),
          torqueFactor length • crossProduct c.p (-coneDir c.n (i * 2 * Real.pi / (k : ℤ)))) := by
    intro c hc μ u hu
    rw [cone_eq k μ hu (h c hc).1 (h c hc).2, List.nil_append, List.map_map]
    apply List.map_congr_left
    intro i _
    simp [wrenchOf]
  clear * - key hu hu'
  induction contacts with
  | nil => rfl
  | cons c cs ih =>
      rw [List.flatMap_cons, List.flatMap_cons, key c (by simp) μ u hu, key c (by simp) μ' u' hu',
        ih fun d hd => key d (List.mem_cons_of_mem _ hd)]

end Simox.Gpl
