import Verif.Mjc.BuildLemmas

/-!
# C145: the bodies of a robot
-/

namespace Simox.Mjc

open Kin

section
variable {R V Q : Type} [Group R] [AddCommGroup V] [DistribMulAction R V]

/-- The document has exactly one body for every node, with the joint, the mass and the mesh of the node, and for all joint values the body is where the node is in the
robot. -/
theorem C145_bodies_partial {r : Robot R V Q} {depth : String → ℕ} (hr : r.Proper depth) {k : ℕ} (hk : ∀ n ∈ r.nodes, depth n.name < k) {M : Motion R V Q} {q : String → Q} {g : Pose R V}
    {global : String → Pose R V} (hg : r.Poses M q g global) :
    ∃ st, makeNodeBodies r k = some st ∧ (addMeshes r.nodes st.1).names.Perm (r.nodes.map (·.name)) ∧
      ∀ x ∈ (addMeshes r.nodes st.1).placed M q g, ∃ n ∈ r.nodes, x.name = n.name ∧ x.items = n.items true ∧ x.pose = global n.name := by
  obtain ⟨st, h1, h2, h3⟩ := makeNodeBodies_spec hr hg hk
  obtain ⟨h4, h5⟩ := addMeshes_placed M q g r.nodes st.1 hr.names
  refine ⟨st, h1, by rw [h4]; exact h3, ?_⟩
  intro x hx
  obtain ⟨y, hy, e1, e2, _, e4⟩ := h5 x hx
  obtain ⟨n, hn, f1, f2, f3⟩ := h2.placed y hy
  refine ⟨n, hn, e1.trans f1, ?_, e2.trans f3⟩
  rw [e4 n hn (by rw [e1, f1]), f2]
  unfold Node.items
  simp

/-- The mesh of every node is seen where the node is. -/
theorem C145_meshes_partial {r : Robot R V Q} {depth : String → ℕ} (hr : r.Proper depth) {k : ℕ} (hk : ∀ n ∈ r.nodes, depth n.name < k) {M : Motion R V Q} {q : String → Q} {g : Pose R V}
    {global : String → Pose R V} (hg : r.Poses M q g global) {st : Body R V Q × List String} (hst : makeNodeBodies r k = some st) (n : String) (p : Pose R V) :
    Seen.frame .geom n p ∈ (addMeshes r.nodes st.1).seen M q g ↔ p = global n ∧ ∃ m ∈ r.nodes, m.name = n ∧ m.mesh = true := by
  obtain ⟨st', h1, h2, h3⟩ := C145_bodies_partial hr hk hg
  rw [hst, Option.some.injEq] at h1
  subst h1
  have hone : (⟨1, 0⟩ : Pose R V) = 1 := rfl
  have hs : ∀ (m : Node R V Q) (h : Pose R V), Seen.frame .geom n p ∈ (m.items true).filterMap (Item.seen h) ↔ m.mesh = true ∧ m.name = n ∧ h = p := by
    intro m h
    unfold Node.items
    cases m.mesh <;> cases m.isJoint <;> cases m.massless <;> simp [geomItem, jointItem, inertialItem, Item.seen, hone, eq_comm]
  rw [seen_placed, List.mem_flatMap]
  constructor
  · rintro ⟨x, hx, hx'⟩
    obtain ⟨m, hm, e1, e2, e3⟩ := h3 x hx
    rw [e2, hs] at hx'
    exact ⟨by rw [← hx'.2.2, e3, hx'.2.1], m, hm, hx'.2.1, hx'.1⟩
  · rintro ⟨rfl, m, hm, rfl, hmm⟩
    have : m.name ∈ ((addMeshes r.nodes st.1).placed M q g).map Placed.name := by
      rw [placed_names]
      exact h2.symm.subset (List.mem_map.2 ⟨m, hm, rfl⟩)
    obtain ⟨x, hx, hxn⟩ := List.mem_map.1 this
    obtain ⟨m', hm', e1, e2, e3⟩ := h3 x hx
    have : m' = m := List.inj_on_of_nodup_map hr.names hm' hm (by rw [← e1, hxn])
    subst this
    exact ⟨x, hx, by rw [e2, hs]; exact ⟨hmm, rfl, e3⟩⟩

/-- Every body is in the body of the parent of its node: these are the pairs of bodies that are excluded from contacts. -/
theorem C145_parents {r : Robot R V Q} {k : ℕ} {st : Body R V Q × List String} (hst : makeNodeBodies r k = some st) :
    ∀ x ∈ (addMeshes r.nodes st.1).pairs, ∃ n ∈ r.nodes, n.name = x.2 ∧ n.parent = some x.1 := by
  rw [addMeshes_pairs]
  exact addNodes_pairs r k r.nodes _ st (fun n hn => hn) hst (by simp [InParent, nodeBody, Body.pairs, pairsAll])

mutual
theorem names_pairs : ∀ b : Body R V Q, b.names = b.name :: b.pairs.map Prod.snd
  | ⟨n, p, i, bs⟩ => by rw [names_mk, Body.pairs, namesAll_pairs n bs, Body.name]
theorem namesAll_pairs (n : String) : ∀ bs : List (Body R V Q), namesAll bs = (pairsAll n bs).map Prod.snd
  | [] => rfl
  | b :: bs => by rw [namesAll_cons, names_pairs b, namesAll_pairs n bs, pairsAll, List.map_append, List.map_cons]
end

/-- Exactly the nodes with a parent are in the body of another node, which is their parent. -/
theorem C145_pairs {r : Robot R V Q} {depth : String → ℕ} (hr : r.Proper depth) {k : ℕ} (hk : ∀ n ∈ r.nodes, depth n.name < k) {M : Motion R V Q} {q : String → Q} {g : Pose R V}
    {global : String → Pose R V} (hg : r.Poses M q g global) {st : Body R V Q × List String} (hst : makeNodeBodies r k = some st) (p c : String) :
    (p, c) ∈ (addMeshes r.nodes st.1).pairs ↔ ∃ n ∈ r.nodes, n.name = c ∧ n.parent = some p := by
  constructor
  · exact C145_parents hst (p, c)
  · rintro ⟨n, hn, rfl, hp⟩
    obtain ⟨st', h1, h2, _⟩ := C145_bodies_partial hr hk hg
    rw [hst, Option.some.injEq] at h1
    subst h1
    have hin : ∀ m ∈ r.nodes, m.name ∈ (addMeshes r.nodes st.1).names := fun m hm => h2.mem_iff.2 (List.mem_map.2 ⟨m, hm, rfl⟩)
    rw [names_pairs] at hin
    have hsnd : ∀ m ∈ r.nodes, m.name ∈ (addMeshes r.nodes st.1).pairs.map Prod.snd → ∃ x, (x, m.name) ∈ (addMeshes r.nodes st.1).pairs ∧ m.parent = some x := by
      intro m hm h
      obtain ⟨⟨x, y⟩, hx, e⟩ := List.mem_map.1 h
      obtain ⟨m', hm', e1, e2⟩ := C145_parents hst (x, y) hx
      have hmm : m' = m := List.inj_on_of_nodup_map hr.names hm' hm (e1.trans e)
      subst hmm
      have : y = m'.name := e
      subst this
      exact ⟨x, hx, e2⟩
    have hroot : r.root.name = (addMeshes r.nodes st.1).name := by
      rcases List.mem_cons.1 (hin _ hr.root) with h | h
      · exact h
      · obtain ⟨x, _, e⟩ := hsnd _ hr.root h
        rw [hr.top] at e
        cases e
    rcases List.mem_cons.1 (hin n hn) with h | h
    · have : n = r.root := List.inj_on_of_nodup_map hr.names hn hr.root (h.trans hroot.symm)
      rw [this, hr.top] at hp
      cases hp
    · obtain ⟨x, hx, e⟩ := hsnd n hn h
      rw [hp, Option.some.injEq] at e
      exact e ▸ hx

end

/-! A line of numbers as the world: poses turn and move it, hinges turn it for odd values, slides move it. -/

theorem unit_smul (u : ℤˣ) (x : ℤ) : u • x = (u : ℤ) * x := rfl

/-- Motions of the line. -/
def lineMotion : Motion ℤˣ ℤ ℤ where
  mot sl p a q := if sl then ⟨1, q * a⟩ else if q % 2 = 0 then 1 else ⟨-1, 2 * p⟩
  moved := by
    intro g sl p a q
    obtain ⟨u, t⟩ := g
    have hu : u⁻¹ = u := by rcases Int.units_eq_one_or u with rfl | rfl <;> rfl
    have hu2 : (u : ℤ) * u = 1 := by rcases Int.units_eq_one_or u with rfl | rfl <;> rfl
    cases sl
    · by_cases hq : q % 2 = 0
      · simp [hq]
      · simp only [hq, if_false, mul_def, inv_def, hu, unit_smul, Bool.false_eq_true]
        ext1
        · simp only [mul_neg, mul_one, neg_mul]
          rcases Int.units_eq_one_or u with rfl | rfl <;> rfl
        · simp only [mul_neg, mul_one, Units.val_neg, neg_mul]
          rcases Int.units_eq_one_or u with rfl | rfl <;> simp <;> ring
    · simp only [if_true, mul_def, inv_def, hu, unit_smul]
      ext1
      · simp only [mul_one]
        rcases Int.units_eq_one_or u with rfl | rfl <;> rfl
      · simp only [mul_one]
        rcases Int.units_eq_one_or u with rfl | rfl <;> simp

/-- A root, a slide on it, and a hinge on the slide that comes first in the list. -/
def arm : Robot ℤˣ ℤ ℤ :=
  ⟨[⟨"hinge", some "slide", ⟨-1, 3⟩, true, false, 1, none, 0, true, true⟩, ⟨"base", none, 1, false, false, 0, none, 1, false, true⟩, ⟨"slide", some "base", ⟨1, 5⟩, true, true, 1, some (0, 9), 0, true, false⟩],
    ⟨"base", none, 1, false, false, 0, none, 1, false, true⟩⟩

/-- The hypotheses hold for it, and the bodies are found. -/
example : arm.Proper (fun n => if n = "base" then 0 else if n = "slide" then 1 else 2) ∧ (∀ n ∈ arm.nodes, (if n.name = "base" then 0 else if n.name = "slide" then 1 else 2) < 3) ∧
    ((makeNodeBodies arm 3).map fun st => st.2) = some ["base", "slide", "hinge"] := by
  refine ⟨⟨by decide, by simp [arm], rfl, ?_⟩, by decide, by decide +kernel⟩
  intro n hn hne
  simp only [arm, List.mem_cons, List.not_mem_nil, or_false] at hn
  rcases hn with rfl | rfl | rfl
  · exact ⟨"slide", rfl, by simp [arm], by decide⟩
  · exact absurd rfl hne
  · exact ⟨"base", rfl, by simp [arm], by decide⟩

/-- The transformations are those for the present joint values: a robot whose slide is at 4 is written as one whose slide has already moved by 4 when its value is 0. Here `now` are the transformations of the same
robot with the slide at 4, and the poses of the robot for joint values of 0 are those of `C145_bodies_partial`. -/
theorem C145_values_false : ∃ now : Robot ℤˣ ℤ ℤ, now.root.name = arm.root.name ∧ now.nodes.map (fun n => (n.name, n.parent, n.axis, n.limits)) = arm.nodes.map (fun n => (n.name, n.parent, n.axis, n.limits)) ∧
    now.nodes.map (fun n => n.tf) = arm.nodes.map (fun n => n.tf * n.motion lineMotion fun m => if m = "slide" then 4 else 0) ∧
    ((makeNodeBodies now 3).map fun st => (st.1.placed lineMotion (fun _ => 0) 1).map fun x => (x.name, x.pose.pos)) = some [("base", 0), ("slide", 9), ("hinge", 12)] ∧
    ((makeNodeBodies arm 3).map fun st => (st.1.placed lineMotion (fun _ => 0) 1).map fun x => (x.name, x.pose.pos)) = some [("base", 0), ("slide", 5), ("hinge", 8)] := by
  refine ⟨⟨[⟨"hinge", some "slide", ⟨-1, 3⟩, true, false, 1, none, 0, true, true⟩, ⟨"base", none, 1, false, false, 0, none, 1, false, true⟩, ⟨"slide", some "base", ⟨1, 9⟩, true, true, 1, some (0, 9), 0, true, false⟩],
    ⟨"base", none, 1, false, false, 0, none, 1, false, true⟩⟩, rfl, rfl, ?_, by decide +kernel, by decide +kernel⟩
  simp [arm, Node.motion, lineMotion, mul_def, unit_smul]

end Simox.Mjc
