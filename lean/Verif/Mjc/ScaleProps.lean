import Verif.Mjc.BuildProps

/-!
# C149, C150: lengths and actuators
-/

set_option linter.unusedSectionVars false

namespace Simox.Mjc

open Kin

section
variable {R V Q : Type} [Group R] [AddCommGroup V] [DistribMulAction R V]

theorem scalePose_mul {M : Motion R V Q} (S : Scaling M) (a b : Pose R V) : scalePose S.sv (a * b) = scalePose S.sv a * scalePose S.sv b := by
  simp [scalePose, mul_def, S.add, S.rot]

theorem sv_zero {M : Motion R V Q} (S : Scaling M) : S.sv 0 = 0 := by
  have := S.add 0 0
  simpa using this

theorem scale_kind (sv : V → V) (sq : Q → Q) (e : Item R V Q) : (e.scale sv sq).kind = e.kind := by
  unfold Item.scale
  split
  · split <;> rfl
  · rfl

theorem motion_scale {M : Motion R V Q} (S : Scaling M) {q q' : String → Q} : ∀ (i : List (Item R V Q)), (∀ e ∈ i, e.kind = .joint → e.pos = 0) →
    (∀ e ∈ i, e.kind = .joint → q' e.name = if e.slide then S.sq (q e.name) else q e.name) → motion M q' (i.map (Item.scale S.sv S.sq)) = scalePose S.sv (motion M q i) := by
  intro i
  induction i with
  | nil =>
    intro _ _
    simp [motion, scalePose, one_def, sv_zero]
  | cons e i ih =>
    intro h1 h2
    have ih' := ih (fun e he => h1 e (List.mem_cons_of_mem _ he)) (fun e he => h2 e (List.mem_cons_of_mem _ he))
    unfold motion at ih' ⊢
    rw [List.map_cons, List.filter_cons, List.filter_cons, scale_kind]
    by_cases hk : e.kind = .joint
    · have hp := h1 e (by simp) hk
      have hq := h2 e (by simp) hk
      simp only [hk, decide_true, if_true, List.map_cons, List.prod_cons]
      rw [scalePose_mul, ← ih']
      congr 1
      unfold Item.scale
      rw [if_pos hk]
      cases hs : e.slide
      · simp only [Bool.false_eq_true, if_false]
        rw [hq, hp, hs, ← S.hinge, sv_zero]
        simp
      · simp only [if_true]
        rw [hq, hp, hs, ← S.slide, sv_zero]
        simp
    · simp only [hk, decide_false, Bool.false_eq_true, if_false]
      exact ih'

theorem seen_scale {M : Motion R V Q} (S : Scaling M) (h : Pose R V) (e : Item R V Q) : (e.scale S.sv S.sq).seen (scalePose S.sv h) = (e.seen h).map (Seen.scale S.sv) := by
  by_cases hk : e.kind = .joint
  · unfold Item.seen
    rw [scale_kind, hk]
    rfl
  · unfold Item.seen
    rw [scale_kind]
    unfold Item.scale
    rw [if_neg hk]
    cases hk' : e.kind
    · exact absurd hk' hk
    all_goals simp [Seen.scale, scalePose, mul_def, S.add, S.rot]

mutual
theorem body_scale {M : Motion R V Q} (S : Scaling M) {q q' : String → Q} : ∀ (g : Pose R V) (b : Body R V Q), AtOrigin b → ScaledValues S.sq q q' b →
    (b.scale S.sv S.sq).seen M q' (scalePose S.sv g) = (b.seen M q g).map (Seen.scale S.sv)
  | g, ⟨n, p, i, bs⟩, h1, h2 => by
    have hm : motion M q' (i.map (Item.scale S.sv S.sq)) = scalePose S.sv (motion M q i) := motion_scale S i (h1 ⟨n, p, i, bs⟩ (by rw [Body.all]; exact List.mem_cons_self)) (h2 ⟨n, p, i, bs⟩ (by rw [Body.all]; exact List.mem_cons_self))
    have hp : scalePose S.sv g * ⟨p.rot, S.sv p.pos⟩ * scalePose S.sv (motion M q i) = scalePose S.sv (g * p * motion M q i) := by
      rw [scalePose_mul, scalePose_mul]
      rfl
    rw [Body.scale, Body.seen, Body.seen, hm, hp, List.map_append,
      bodies_scale S _ bs (fun b hb x hx => h1 x (by rw [Body.all]; exact List.mem_cons_of_mem _ (mem_allAll.2 ⟨b, hb, hx⟩))) (fun b hb x hx => h2 x (by rw [Body.all]; exact List.mem_cons_of_mem _ (mem_allAll.2 ⟨b, hb, hx⟩)))]
    congr 1
    rw [List.filterMap_map, List.map_filterMap]
    congr 1
    funext e
    exact seen_scale S _ e
theorem bodies_scale {M : Motion R V Q} (S : Scaling M) {q q' : String → Q} : ∀ (g : Pose R V) (bs : List (Body R V Q)), (∀ b ∈ bs, AtOrigin b) → (∀ b ∈ bs, ScaledValues S.sq q q' b) →
    seenAll M q' (scalePose S.sv g) (scaleAll S.sv S.sq bs) = (seenAll M q g bs).map (Seen.scale S.sv)
  | g, [], _, _ => rfl
  | g, b :: bs, h1, h2 => by
    rw [scaleAll, seenAll, seenAll, List.map_append, body_scale S g b (h1 b (by simp)) (h2 b (by simp)),
      bodies_scale S g bs (fun c hc => h1 c (List.mem_cons_of_mem _ hc)) (fun c hc => h2 c (List.mem_cons_of_mem _ hc))]
end

/-- If the joints are at the origins of their bodies, everything in the document is at the scaled place, for all joint values, where the values of slides are scaled too. -/
theorem C149_scale_partial {M : Motion R V Q} (S : Scaling M) {q q' : String → Q} {b : Body R V Q} (hb : AtOrigin b) (hq : ScaledValues S.sq q q' b) (g : Pose R V) :
    (b.scale S.sv S.sq).seen M q' (scalePose S.sv g) = (b.seen M q g).map (Seen.scale S.sv) := body_scale S g b hb hq

mutual
theorem joints_scale (sv : V → V) (sq : Q → Q) : ∀ b : Body R V Q, (b.scale sv sq).joints = b.joints.map (Item.scale sv sq)
  | ⟨n, p, i, bs⟩ => by
    rw [Body.scale, Body.joints, Body.joints, List.map_append, jointsAll_scale sv sq bs, List.filter_map]
    congr 2
    apply List.filter_congr
    intro e _
    simp [scale_kind]
theorem jointsAll_scale (sv : V → V) (sq : Q → Q) : ∀ bs : List (Body R V Q), jointsAll (scaleAll sv sq bs) = (jointsAll bs).map (Item.scale sv sq)
  | [] => rfl
  | b :: bs => by rw [scaleAll, jointsAll, jointsAll, List.map_append, joints_scale sv sq b, jointsAll_scale sv sq bs]
end

/-- The limits of slides are scaled, those of hinges are not. -/
theorem C149_limits (sv : V → V) (sq : Q → Q) (b : Body R V Q) :
    (b.scale sv sq).joints.map (fun e => (e.name, e.range)) = b.joints.map fun e => (e.name, if e.slide then e.range.map fun x => (sq x.1, sq x.2) else e.range) := by
  rw [joints_scale, List.map_map]
  apply List.map_congr_left
  intro e he
  have hk : e.kind = .joint := by
    clear sv sq
    revert e
    have : (∀ b : Body R V Q, ∀ e ∈ b.joints, e.kind = .joint) := by
      intro b
      have key : ∀ (k : ℕ) (b : Body R V Q), b.all.length ≤ k → ∀ e ∈ b.joints, e.kind = .joint := by
        intro k
        induction k with
        | zero =>
          intro b h
          rw [Body.all_eq] at h
          simp at h
        | succ k ih =>
          intro b h e he
          have hj : b.joints = b.items.filter (fun e => e.kind = .joint) ++ jointsAll b.bodies := by
            cases b
            rfl
          rw [hj, List.mem_append] at he
          rcases he with he | he
          · simpa using (List.mem_filter.1 he).2
          · have : ∀ bs : List (Body R V Q), (∀ c ∈ bs, c ∈ b.bodies) → e ∈ jointsAll bs → e.kind = .joint := by
              intro bs
              induction bs with
              | nil => simp [jointsAll]
              | cons c bs ih2 =>
                intro hc he
                rw [jointsAll, List.mem_append] at he
                rcases he with he | he
                · exact ih c (by have := child_length (hc c (by simp)); omega) e he
                · exact ih2 (fun d hd => hc d (List.mem_cons_of_mem _ hd)) he
            exact this b.bodies (fun c hc => hc) he
      exact key _ b le_rfl
    exact this b
  simp only [Function.comp_apply, Item.scale, if_pos hk]
  cases e.slide <;> rfl

/-- There is exactly one actuator for every joint of the document, in the order of the joints and with their names. -/
theorem C150_actuators (position : Bool) (b : Body R V Q) : (addActuators position b).map (fun a => (a.name, a.joint)) = b.joints.map fun e => (e.name, e.name) := by
  unfold addActuators
  rw [List.map_map]
  rfl

/-- Only actuators for positions have a range, and it is the range of the joint before lengths are scaled: for hinges it is the range of the joint in the document. -/
theorem C150_range_partial (sv : V → V) (sq : Q → Q) {b : Body R V Q} (hb : ∀ e ∈ b.joints, e.slide = false) :
    (addActuators true b).map (fun a => (a.joint, a.range)) = (b.scale sv sq).joints.map (fun e => (e.name, e.range)) ∧ ∀ a ∈ addActuators false b, a.range = none := by
  constructor
  · rw [C149_limits]
    unfold addActuators
    rw [List.map_map]
    apply List.map_congr_left
    intro e he
    simp [hb e he]
  · intro a ha
    unfold addActuators at ha
    obtain ⟨e, _, rfl⟩ := List.mem_map.1 ha
    rfl

end

/-- Ten times as long. -/
def ten : Scaling lineMotion where
  sv x := 10 * x
  sq x := 10 * x
  add a b := by ring
  rot r a := by simp only [unit_smul]; ring
  slide p a q := by simp [lineMotion, scalePose]; ring
  hinge p a q := by
    simp only [lineMotion, Bool.false_eq_true, if_false, scalePose]
    split
    · rfl
    · simp only [Pose.mk.injEq, true_and]
      ring

/-- A slide with a range and a mesh, and a hinge in it. -/
def slider : Body ℤˣ ℤ ℤ := ⟨"a", ⟨1, 2⟩, [⟨.joint, "a", true, 0, 1, 1, some (0, 4)⟩, ⟨.geom, "a", false, 3, 1, 0, none⟩], [⟨"b", ⟨-1, 1⟩, [⟨.joint, "b", false, 0, 1, 1, some (0, 1)⟩, ⟨.geom, "b", false, 1, 1, 0, none⟩], []⟩]⟩

/-- The hypotheses of `C149_scale_partial` hold for it. -/
example : AtOrigin slider ∧ ScaledValues ten.sq (fun n => if n = "a" then 3 else 1) (fun n => if n = "a" then 30 else 1) slider := by
  constructor
  · simp [AtOrigin, slider, Body.all, allAll, Body.items]
  · simp [ScaledValues, slider, Body.all, allAll, Body.items, ten]

/-- The hypothesis of `C150_range_partial` holds for a hinge with a range. -/
example : ∀ e ∈ (⟨"b", ⟨-1, 1⟩, [⟨.joint, "b", false, 0, 1, 1, some (0, 1)⟩], []⟩ : Body ℤˣ ℤ ℤ).joints, e.slide = false := by
  simp [Body.joints, jointsAll]

/-- The place of a joint is not scaled. Here a hinge came from a body that was merged with another one, at 2: after scaling by ten it turns about 2 instead of 20. -/
theorem C149_joint_false : ∃ (loc : String → Pose ℤˣ ℤ) (b : Body ℤˣ ℤ ℤ) (m : Body ℤˣ ℤ ℤ), AtOrigin b ∧ Faithful loc b ∧ Plain b ∧ b.Straight loc 1 ∧ (sanitize loc b.all.length 1 b []).1 = .body m ∧
    (m.seen lineMotion (fun _ => 1) 1).map (Seen.scale ten.sv) = [.frame .geom "b" ⟨-1, 20⟩] ∧ (m.scale ten.sv ten.sq).seen lineMotion (fun _ => 1) 1 = [.frame .geom "b" ⟨-1, -16⟩] := by
  refine ⟨fun _ => ⟨1, 2⟩, ⟨"a", 1, [], [⟨"b", ⟨1, 2⟩, [⟨.joint, "b", false, 0, 1, 1, none⟩, ⟨.geom, "b", false, 0, 1, 0, none⟩], []⟩]⟩, _, ?_, ?_, ?_, ?_, rfl, rfl, rfl⟩
  · simp [AtOrigin, Body.all, allAll, Body.items]
  · simp [Faithful, Body.all, allAll, Body.bodies, Body.pose]
  · simp [Plain, Body.all, allAll, Body.items, hasMass]
  · simp [Body.Straight, StraightAll, hasMass]

/-- The range of the actuator of a slide is not scaled with the range of the slide. -/
theorem C150_range_false : (addActuators true slider).map (fun a => (a.joint, a.range)) = [("a", some (0, 4)), ("b", some (0, 1))] ∧
    (slider.scale ten.sv ten.sq).joints.map (fun e => (e.name, e.range)) = [("a", some (0, 40)), ("b", some (0, 1))] := ⟨rfl, rfl⟩

end Simox.Mjc
