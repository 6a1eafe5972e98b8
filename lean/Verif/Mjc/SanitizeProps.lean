import Verif.Mjc.BuildProps

/-!
# C146, C147: bodies without mass
-/

namespace Simox.Mjc

open Kin

section
variable {R V Q : Type} [Group R] [AddCommGroup V] [DistribMulAction R V]

/-- After the bodies without mass were removed, every body has a mass. -/
theorem C146_mass (loc : String → Pose R V) (b : Body R V Q) (s : Sets) : (sanitize loc b.all.length 1 b s).1.Massive := massive loc _ _ _ _ le_rfl

/-- Nothing else than bodies without mass changes: if every body has a mass, the document stays as it is. -/
theorem C146_unchanged (loc : String → Pose R V) (k : ℕ) : ∀ (b : Body R V Q) (s : Sets), b.all.length ≤ k → (∀ x ∈ b.all, hasMass x.items = true) → sanitize loc k 1 b s = (.body b, s) := by
  induction k with
  | zero =>
    intro b s h
    rw [Body.all_eq] at h
    simp at h
  | succ k ih =>
    intro b s h hm
    have he : ∀ (bs : List (Body R V Q)) (s : Sets), (∀ c ∈ bs, c ∈ b.bodies) → each (sanitize loc k 1) bs s = (bs.map .body, s) := by
      intro bs
      induction bs with
      | nil => exact fun s _ => rfl
      | cons c bs ih2 =>
        intro s hc
        have h1 : sanitize loc k 1 c s = (.body c, s) :=
          ih c s (by have := child_length (hc c (by simp)); omega) fun x hx => hm x (mem_all.2 (.inr ⟨c, hc c (by simp), hx⟩))
        rw [each, h1, ih2 s fun d hd => hc d (List.mem_cons_of_mem _ hd)]
        rfl
    have hs : ∀ bs : List (Body R V Q), Out.sites (bs.map Out.body) = [] := by
      intro bs
      induction bs with
      | nil => rfl
      | cons c bs ih2 => exact ih2
    have hb : ∀ bs : List (Body R V Q), Out.bodies (bs.map Out.body) = bs := by
      intro bs
      induction bs with
      | nil => rfl
      | cons c bs ih2 => rw [List.map_cons, Out.bodies, ih2]
    rw [sanitize, if_pos (hm b (by simp [Body.all_eq])), he b.bodies s fun c hc => hc]
    simp only
    rw [hs, hb, List.append_nil]
    cases b
    rfl

/-- For all joint values, everything that is seen of the bodies is seen at the same place after bodies without mass were removed. Only masses and sites are added. -/
theorem C147_motion_partial (M : Motion R V Q) (q : String → Q) {loc : String → Pose R V} {b : Body R V Q} (hf : Faithful loc b) (hp : Plain b) (hs : b.Straight loc 1) (s : Sets) (g : Pose R V) :
    ∃ extra, ((sanitize loc b.all.length 1 b s).1.seen M q g).Perm (b.seen M q g ++ extra) ∧ ∀ x ∈ extra, x.Added :=
  added M q _ 1 b s g le_rfl (fun c hc => by rw [one_mul]; exact hf b (by simp [Body.all_eq]) c hc) (fun c hc => hf.child hc) hp hs

/-- For a robot: in the document without bodies that have no mass, the mesh of every node is seen where the node is in the robot, for all joint values, and no other meshes are seen. -/
theorem C147_robot_partial {r : Robot R V Q} {depth : String → ℕ} (hr : r.Proper depth) {k : ℕ} (hk : ∀ n ∈ r.nodes, depth n.name < k) {M : Motion R V Q} {q : String → Q} {g : Pose R V}
    {global : String → Pose R V} (hg : r.Poses M q g global) {st : Body R V Q × List String} (hst : makeNodeBodies r k = some st) (hs : (addMeshes r.nodes st.1).Straight r.loc 1) (s : Sets) (n : String) (p : Pose R V) :
    Seen.frame .geom n p ∈ (sanitize r.loc (addMeshes r.nodes st.1).all.length 1 (addMeshes r.nodes st.1) s).1.seen M q g ↔ p = global n ∧ ∃ m ∈ r.nodes, m.name = n ∧ m.mesh = true := by
  obtain ⟨extra, hp, ha⟩ := C147_motion_partial M q (built_faithful hr hst) (built_plain hr hst) hs s g
  rw [← C145_meshes_partial hr hk hg hst, hp.mem_iff, List.mem_append, or_iff_left]
  intro h
  obtain ⟨x, hx⟩ := ha _ h
  rcases hx with hx | ⟨m, hx⟩ <;> simp at hx

mutual
theorem commuting_straight {loc : String → Pose R V} (acc : Pose R V) : ∀ b : Body R V Q, (∀ n ∈ b.names, ∀ m ∈ b.names, loc n * loc m = loc m * loc n) → (∀ n ∈ b.names, loc n * acc = acc * loc n) →
    b.Straight loc acc
  | ⟨n, p, i, bs⟩, h, ha => by
    rw [Body.Straight]
    rw [names_mk] at h ha
    exact commuting_straightAll acc _ bs (fun n hn m hm => h n (List.mem_cons_of_mem _ hn) m (List.mem_cons_of_mem _ hm)) fun n hn => ha n (List.mem_cons_of_mem _ hn)
theorem commuting_straightAll {loc : String → Pose R V} (acc : Pose R V) (m : Bool) : ∀ bs : List (Body R V Q), (∀ n ∈ namesAll bs, ∀ m ∈ namesAll bs, loc n * loc m = loc m * loc n) →
    (∀ n ∈ namesAll bs, loc n * acc = acc * loc n) → StraightAll loc acc m bs
  | [], _, _ => by rw [StraightAll]; trivial
  | b :: bs, h, ha => by
    rw [namesAll_cons] at h ha
    rw [StraightAll]
    have hb : b.name ∈ b.names := by simp [Body.names, Body.all_eq]
    refine ⟨?_, commuting_straightAll acc m bs (fun n hn m hm => h n (List.mem_append_right _ hn) m (List.mem_append_right _ hm)) fun n hn => ha n (List.mem_append_right _ hn)⟩
    split
    · refine ⟨ha _ (List.mem_append_left _ hb), commuting_straight _ b (fun n hn m hm => h n (List.mem_append_left _ hn) m (List.mem_append_left _ hm)) ?_⟩
      intro n hn
      rw [← mul_assoc, ha n (List.mem_append_left _ hn), mul_assoc, h n (List.mem_append_left _ hn) _ (List.mem_append_left _ hb), mul_assoc]
    · exact commuting_straight 1 b (fun n hn m hm => h n (List.mem_append_left _ hn) m (List.mem_append_left _ hm)) fun n _ => by rw [mul_one, one_mul]
end

/-- For example, if the bodies are only shifted against each other, and not turned. -/
theorem C147_shifts_partial (M : Motion R V Q) (q : String → Q) {loc : String → Pose R V} {b : Body R V Q} (hf : Faithful loc b) (hp : Plain b) (hs : ∀ n ∈ b.names, (loc n).rot = 1) (s : Sets) (g : Pose R V) :
    ∃ extra, ((sanitize loc b.all.length 1 b s).1.seen M q g).Perm (b.seen M q g ++ extra) ∧ ∀ x ∈ extra, x.Added := by
  refine C147_motion_partial M q hf hp (commuting_straight 1 b ?_ fun n _ => by rw [mul_one, one_mul]) s g
  intro n hn m hm
  rw [mul_def, mul_def, hs n hn, hs m hm, one_smul, one_smul, add_comm]

end

/-- An element without joint, for the examples. -/
def plainItem (k : Kind) (n : String) : Item ℤˣ ℤ ℤ := ⟨k, n, false, 0, 1, 0, none⟩

/-- A tree: a base with mass, in it a body without mass whose only child, a hinge, has a mesh and an empty leaf. -/
def exampleTree : Body ℤˣ ℤ ℤ :=
  ⟨"base", 1, [plainItem .inertial "base"], [⟨"a", ⟨-1, 2⟩, [⟨.joint, "a", true, 0, 1, 1, none⟩], [⟨"b", ⟨-1, 3⟩, [plainItem .geom "b", ⟨.joint, "b", false, 0, 1, 1, none⟩], [⟨"c", ⟨1, 1⟩, [], []⟩]⟩]⟩]⟩

/-- The hypotheses hold for it. Two bodies are left. -/
example : Faithful (fun n => if n = "a" then ⟨-1, 2⟩ else if n = "b" then ⟨-1, 3⟩ else ⟨1, 1⟩) exampleTree ∧ Plain exampleTree ∧
    exampleTree.Straight (fun n => if n = "a" then ⟨-1, 2⟩ else if n = "b" then ⟨-1, 3⟩ else ⟨1, 1⟩) 1 ∧
    (match (sanitize (fun n => if n = "a" then ⟨-1, 2⟩ else if n = "b" then ⟨-1, 3⟩ else ⟨1, 1⟩) 4 1 exampleTree []).1 with | .body b => b.names | .site _ => []) = ["base", "a~b"] := by
  refine ⟨?_, ?_, ?_, by decide +kernel⟩
  · simp [Faithful, exampleTree, Body.all, allAll, Body.bodies, Body.name, Body.pose]
  · simp [Plain, exampleTree, Body.all, allAll, Body.items, hasMass, plainItem]
  · simp [exampleTree, Body.Straight, StraightAll, hasMass, plainItem, Body.name]

/-- The hypotheses of `C147_robot_partial` hold for the arm, whose slide has no mass and no mesh (`arm.Proper` is shown beside `C145_bodies_partial`). -/
example : ∃ st, makeNodeBodies arm 3 = some st ∧ (addMeshes arm.nodes st.1).Straight arm.loc 1 := by
  refine ⟨_, rfl, ?_⟩
  simp [arm, addMeshes, Body.first, firstAll, Body.insert, insertAll, nodeBody, Body.Straight, StraightAll, hasMass, jointItem, inertialItem, geomItem, Robot.loc, Robot.get, Body.name]

/-- The poses of bodies that are merged one after the other are multiplied in the wrong order: a mesh is not where it was. The joints do not matter here. -/
theorem C147_order_false : ∃ (loc : String → Pose ℤˣ ℤ) (b : Body ℤˣ ℤ ℤ), Faithful loc b ∧ Plain b ∧
    b.seen lineMotion (fun _ => 0) 1 = [.frame .geom "c" ⟨-1, 5⟩] ∧ (sanitize loc b.all.length 1 b []).1.seen lineMotion (fun _ => 0) 1 = [.frame .geom "c" ⟨-1, -3⟩] := by
  refine ⟨fun n => if n = "b" then ⟨1, 4⟩ else if n = "c" then ⟨-1, 1⟩ else 1, ⟨"a", 1, [], [⟨"b", ⟨1, 4⟩, [], [⟨"c", ⟨-1, 1⟩, [plainItem .geom "c"], []⟩]⟩]⟩, ?_, ?_, ?_, ?_⟩
  · simp [Faithful, Body.all, allAll, Body.bodies, Body.name, Body.pose]
  · simp [Plain, Body.all, allAll, Body.items, hasMass, plainItem]
  · rfl
  · rfl

/-- A site of a body without mass moves with the joint of the body that is merged with it, although it did not before. -/
theorem C147_site_false : ∃ (loc : String → Pose ℤˣ ℤ) (b : Body ℤˣ ℤ ℤ), Faithful loc b ∧ b.Straight loc 1 ∧
    b.seen lineMotion (fun _ => 7) 1 = [.frame .site "s" ⟨1, 0⟩, .frame .geom "b" ⟨1, 7⟩] ∧ (sanitize loc b.all.length 1 b []).1.seen lineMotion (fun _ => 7) 1 = [.frame .site "s" ⟨1, 7⟩, .frame .geom "b" ⟨1, 7⟩] := by
  refine ⟨fun _ => 1, ⟨"a", 1, [plainItem .site "s"], [⟨"b", 1, [⟨.joint, "b", true, 0, 1, 1, none⟩, plainItem .geom "b"], []⟩]⟩, ?_, ?_, ?_, ?_⟩
  · simp [Faithful, Body.all, allAll, Body.bodies, Body.pose]
  · simp [Body.Straight, StraightAll, hasMass, plainItem]
  · rfl
  · rfl

end Simox.Mjc
