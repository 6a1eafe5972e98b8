/-
Property C33: the scene registry.
-/
import Verif.Scene.Lemmas

namespace Simox.Scn

/-- C33: after any sequence of calls an entity is in the scene exactly if it was registered and no
call since has taken it out (by pointer, or by a name whose first bearer it was at that time). -/
theorem C33_present (nm : Kind → Nat → String) (cn tr : Nat → String) (h : List Op) (k : Kind)
    (e : Nat) :
    e ∈ (run (World.start nm cn tr) h).scene.list k ↔
      ∃ h1 h2, h = h1 ++ Op.register k (some e) :: h2 ∧
        ∀ a op b, h2 = a ++ op :: b →
          ¬ TakesOut (run (World.start nm cn tr) (h1 ++ Op.register k (some e) :: a)) op k e := by
  rw [history_iff (fun h => e ∈ (run (World.start nm cn tr) h).scene.list k)
    (fun op => op = Op.register k (some e))
    (fun h op => TakesOut (run (World.start nm cn tr) h) op k e)]
  · constructor
    · rintro ⟨h1, op, h2, e', rfl, ho⟩
      exact ⟨h1, h2, e', ho⟩
    · rintro ⟨h1, h2, e', ho⟩
      exact ⟨h1, _, h2, e', rfl, ho⟩
  · cases k <;> simp [run, World.start, Scene.empty, Scene.list]
  · intro h op
    rw [run_snoc]
    exact mem_step (inv_run (inv_start nm cn tr) h) op k e

/-- C33: the vectors keep the order of registration.  Registering appends an entity that is not there
and has no effect on one that is; de-registering removes that entity and keeps the others in
order. -/
theorem C33_order (nm : Kind → Nat → String) (cn tr : Nat → String) (h : List Op) (k : Kind)
    (e : Nat) (n : String) :
    let w := run (World.start nm cn tr) h
    (w.scene.list k).Nodup ∧
    (step w (.register k (some e))).1.scene.list k =
      (if e ∈ w.scene.list k then w.scene.list k else w.scene.list k ++ [e]) ∧
    (step w (.deRegister k (some e))).1.scene.list k =
      (w.scene.list k).filter (fun x => decide (x ≠ e)) ∧
    (FirstNamed (w.name k) (w.scene.list k) n e →
      (step w (.deRegisterNamed k n)).1.scene.list k =
        (w.scene.list k).filter (fun x => decide (x ≠ e))) ∧
    ((∀ x ∈ w.scene.list k, w.name k x ≠ n) →
      (step w (.deRegisterNamed k n)).1.scene.list k = w.scene.list k) := by
  intro w
  have hw : Inv w := inv_run (inv_start nm cn tr) h
  have hl := hw.lists k
  refine ⟨hl, ?_, ?_, fun hf => ?_, fun hn => ?_⟩
  · rw [step_list]; simp only [nextList, if_true, register_eq]
  · rw [step_list]; simp only [nextList, if_true]; exact deRegister_eq hl e
  · rw [step_list]; simp only [nextList, if_true]; exact deRegisterNamed_first hl hf
  · rw [step_list]; simp only [nextList, if_true]; exact deRegisterNamed_none hn

/-- C33: lookups do not change the vectors; by pointer they tell whether the entity is there, by name
they give the first bearer of the name in order of registration, and null exactly if there is none. -/
theorem C33_lookup (w : World) (k : Kind) (e : Nat) (n : String) :
    step w (.has k (some e)) = (w, .bool (decide (e ∈ w.scene.list k))) ∧
    step w (.getAll k) = (w, .list (w.scene.list k)) ∧
    (step w (.hasNamed k n) = (w, .bool true) ↔ ∃ x ∈ w.scene.list k, w.name k x = n) ∧
    (step w (.get k n) = (w, .entity (some e)) ↔ FirstNamed (w.name k) (w.scene.list k) n e) ∧
    (step w (.get k n) = (w, .entity none) ↔ ∀ x ∈ w.scene.list k, w.name k x ≠ n) := by
  refine ⟨?_, rfl, ?_, ?_, ?_⟩
  · simp only [step]
    congr 2
    rw [Bool.eq_iff_iff, has_iff]; simp
  · simp only [step, Prod.mk.injEq, true_and, Result.bool.injEq]
    exact hasNamed_iff _ _ _
  · simp only [step, Prod.mk.injEq, true_and, Result.entity.injEq]
    exact getNamed_some _ _ _ _
  · simp only [step, Prod.mk.injEq, true_and, Result.entity.injEq]
    exact getNamed_none _ _ _

/-- C33: `getTrajectories(robotName)` gives the registered trajectories of that robot, in order. -/
theorem C33_trajectories (w : World) (r : String) :
    ∃ l, step w (.getTrajectories r) = (w, .list l) ∧ l.Sublist (w.scene.list .trajectory) ∧
      ∀ t, t ∈ l ↔ t ∈ w.scene.list .trajectory ∧ w.trajRobot t = r := by
  refine ⟨_, rfl, List.filter_sublist, fun t => ?_⟩
  simp [Scene.list]

/-- The kind of entities a call works on; `none` for the configurations. -/
def kindOf : Op → Option Kind
  | .register k _ => some k
  | .deRegister k _ => some k
  | .deRegisterNamed k _ => some k
  | .has k _ => some k
  | .hasNamed k _ => some k
  | .get k _ => some k
  | .getAll k => some k
  | .getTrajectories _ => some .trajectory
  | .rename k _ _ => some k
  | _ => none

/-- C33: calls for one kind of entity leave the other kinds alone, and calls for entities leave the
configurations of all robots alone. -/
theorem C33_independent (w : World) (op : Op) :
    (∀ k, kindOf op ≠ some k → (step w op).1.scene.list k = w.scene.list k) ∧
    (∀ k, kindOf op = some k → ∀ r, configsOf (step w op).1 r = configsOf w r) := by
  constructor
  · intro k hk
    rw [step_list]
    unfold nextList
    split
    · rw [if_neg (fun h => hk (by rw [h]; rfl))]
    · rw [if_neg (fun h => hk (by rw [h]; rfl))]
    · rw [if_neg (fun h => hk (by rw [h]; rfl))]
    · rfl
  · intro k hk r
    rw [step_configs]
    unfold nextConfigs
    split <;> simp [kindOf] at hk ⊢

/-- C33: null pointers are refused with an exception and change nothing. -/
theorem C33_null (w : World) (k : Kind) (n : String) (r c : Option Nat) :
    step w (.register k none) = (w, .threw) ∧ step w (.deRegister k none) = (w, .threw) ∧
    step w (.has k none) = (w, .threw) ∧
    (r = none ∨ c = none → step w (.registerConfig r c) = (w, .threw) ∧
      step w (.deRegisterConfig r c) = (w, .threw) ∧ step w (.hasConfig r c) = (w, .threw)) ∧
    step w (.deRegisterConfigNamed none n) = (w, .threw) ∧
    step w (.hasConfigNamed none n) = (w, .threw) ∧ step w (.getConfig none n) = (w, .threw) := by
  refine ⟨rfl, rfl, rfl, ?_, rfl, rfl, rfl⟩
  rintro (rfl | rfl)
  · exact ⟨rfl, rfl, rfl⟩
  · cases r <;> exact ⟨rfl, rfl, rfl⟩

/-- C33: a configuration is stored for a robot exactly if it was registered for this robot and not
taken out since; robots need not be registered for that.  No configuration is stored twice. -/
theorem C33_config_present (nm : Kind → Nat → String) (cn tr : Nat → String) (h : List Op)
    (r c : Nat) :
    (configsOf (run (World.start nm cn tr) h) r).Nodup ∧
    (c ∈ configsOf (run (World.start nm cn tr) h) r ↔
      ∃ h1 op h2, h = h1 ++ op :: h2 ∧ PutsIn op r c ∧
        ∀ a o b, h2 = a ++ o :: b →
          ¬ TakesOutConfig (run (World.start nm cn tr) (h1 ++ op :: a)) o r c) := by
  refine ⟨(inv_run (inv_start nm cn tr) h).configs r, ?_⟩
  rw [history_iff (fun h => c ∈ configsOf (run (World.start nm cn tr) h) r)
    (fun op => PutsIn op r c)
    (fun h op => TakesOutConfig (run (World.start nm cn tr) h) op r c)]
  · simp [run, World.start, Scene.empty, configsOf]
  · intro h op
    rw [run_snoc]
    exact mem_step_configs (inv_run (inv_start nm cn tr) h) op r c

/-- C33: looking up configurations through the robot: the answers, and that the configurations of no
robot change.  `getRobotConfigs` gives the stored configurations if some robot of that name is
registered, else nothing. -/
theorem C33_config_lookup (w : World) (r c : Nat) (n : String) :
    (step w (.hasConfig (some r) (some c))).2 = .bool (decide (c ∈ configsOf w r)) ∧
    ((step w (.hasConfigNamed (some r) n)).2 = .bool true ↔
      ∃ x ∈ configsOf w r, w.configName x = n) ∧
    ((step w (.getConfig (some r) n)).2 = .entity (some c) ↔
      FirstNamed w.configName (configsOf w r) n c) ∧
    ((step w (.getConfig (some r) n)).2 = .entity none ↔
      ∀ x ∈ configsOf w r, w.configName x ≠ n) ∧
    ((∃ x ∈ w.scene.list .robot, w.name .robot x = w.name .robot r) →
      (step w (.getConfigs (some r))).2 = .list (configsOf w r)) ∧
    ((∀ x ∈ w.scene.list .robot, w.name .robot x ≠ w.name .robot r) →
      (step w (.getConfigs (some r))).2 = .list []) ∧
    (∀ op, op = .hasConfig (some r) (some c) ∨ op = .hasConfigNamed (some r) n ∨
        op = .getConfig (some r) n ∨ op = .getConfigs (some r) →
      ∀ r', configsOf (step w op).1 r' = configsOf w r') := by
  refine ⟨?_, ?_, ?_, ?_, fun h => ?_, fun h => ?_, ?_⟩
  · simp only [step, Result.bool.injEq]
    rw [Bool.eq_iff_iff, has_iff, decide_eq_true_iff]; rfl
  · simp only [step, Result.bool.injEq]
    exact hasNamed_iff _ _ _
  · simp only [step, Result.entity.injEq]
    exact getNamed_some _ _ _ _
  · simp only [step, Result.entity.injEq]
    exact getNamed_none _ _ _
  · have : hasNamed (w.name .robot) w.scene.robots (w.name .robot r) = true :=
      (hasNamed_iff _ _ _).2 h
    simp only [step, this, if_true]; rfl
  · have : ¬ hasNamed (w.name .robot) w.scene.robots (w.name .robot r) = true := by
      intro e
      obtain ⟨x, hx, hn⟩ := (hasNamed_iff _ _ _).1 e
      exact h x hx hn
    simp only [step, this]; rfl
  · rintro op (rfl | rfl | rfl | rfl) r' <;> rw [step_configs] <;> rfl

/-- C33: looking up a configuration through the name of its robot finds it if the robot is the only
one with this name that was ever used as a key. -/
theorem C33_config_by_robot_name (w : World) (r : Nat) (rn n : String)
    (hr : ∃ v, (r, v) ∈ w.scene.configs) (hn : w.name .robot r = rn)
    (hu : ∀ kv ∈ w.scene.configs, w.name .robot kv.1 = rn → kv.1 = r) :
    (step w (.getConfigOf rn n)).2 = (step w (.getConfig (some r) n)).2 ∧
      (step w (.getConfigOf rn n)).1 = w := by
  have key : ∀ m : List (Nat × List Nat), (∃ v, (r, v) ∈ m) →
      (∀ kv ∈ m, w.name .robot kv.1 = rn → kv.1 = r) → keyNamed (w.name .robot) m rn = some r := by
    intro m
    induction m with
    | nil => rintro ⟨v, hv⟩; simp at hv
    | cons kv m ih =>
      obtain ⟨k, u⟩ := kv
      rintro ⟨v, hv⟩ hu
      unfold keyNamed
      by_cases h : w.name .robot k = rn
      · rw [if_pos (by simpa using h)]
        rw [show k = r from hu (k, u) (by simp) h]
      · rw [if_neg (by simpa using h)]
        apply ih _ (fun kv h' => hu kv (by simp [h']))
        rcases List.mem_cons.1 hv with e | hv
        · simp at e; exact absurd (e.1 ▸ hn) h
        · exact ⟨v, hv⟩
  simp only [step, key _ hr hu, and_true]

/-- Robots 1 and 2 share the name "r", configuration 7 is called "cfg". -/
def twins : World := World.start (fun _ _ => "r") (fun _ => "cfg") (fun _ => "r")

/-- C33 (violation): asking whether a robot has a configuration can change the answer to a later
question: the query leaves an empty entry behind, which hides the configurations of another robot
with the same name. -/
theorem C33_query_has_side_effect :
    ∃ (nm : Kind → Nat → String) (cn tr : Nat → String) (h : List Op) (q : Op),
      (∃ r n, q = .hasConfigNamed (some r) n) ∧
      (step (run (World.start nm cn tr) h) (.getConfigOf "r" "cfg")).2 = .entity (some 7) ∧
      (step (run (World.start nm cn tr) (h ++ [q])) (.getConfigOf "r" "cfg")).2 = .entity none := by
  exact ⟨fun _ _ => "r", fun _ => "cfg", fun _ => "r", [.register .robot (some 1),
    .register .robot (some 2), .registerConfig (some 2) (some 7)], .hasConfigNamed (some 1) "cfg",
    ⟨1, "cfg", rfl⟩, rfl, rfl⟩

/-- C33: configurations outlive the registration of their robot: taking the robot out and putting it
back gives the same configurations. -/
theorem C33_configs_outlive_robot (w : World) (r : Nat) :
    configsOf (step w (.deRegister .robot (some r))).1 r = configsOf w r ∧
    (step (run w [.deRegister .robot (some r), .register .robot (some r)])
      (.getConfigs (some r))).2 = .list (configsOf w r) := by
  have h1 : configsOf (run w [.deRegister .robot (some r), .register .robot (some r)]) r =
      configsOf w r := by
    simp only [run, List.foldl_cons, List.foldl_nil]
    rw [step_configs]
    simp only [nextConfigs]
    rw [step_configs]
    rfl
  refine ⟨by rw [step_configs]; rfl, ?_⟩
  rw [← h1]
  apply (C33_config_lookup _ r 0 "").2.2.2.2.1
  refine ⟨r, ?_, rfl⟩
  simp only [run, List.foldl_cons, List.foldl_nil]
  rw [step_list]
  simp only [nextList, if_true]
  exact mem_register.2 (Or.inr rfl)

/-! ### Non-vacuity -/

example : (run twins [.register .obstacle (some 3), .register .obstacle (some 4),
    .register .obstacle (some 3), .deRegisterNamed .obstacle "r"]).scene.list .obstacle = [4] := rfl
example : TakesOut (run twins [.register .obstacle (some 3), .register .obstacle (some 4)])
    (.deRegisterNamed .obstacle "r") .obstacle 3 :=
  Or.inr ⟨"r", rfl, [], [4], rfl, rfl, by simp⟩
example : PutsIn (.registerConfigs (some 1) [some 5, none, some 6]) 1 5 :=
  Or.inr ⟨[5], [none, some 6], rfl, by simp⟩
example : (step (run twins [.registerConfigs (some 1) [some 5, none, some 6]])
    (.getConfig (some 1) "cfg")).2 = .entity (some 5) := rfl
-- the premises of `C33_config_by_robot_name`
example : (step (run twins [.registerConfig (some 2) (some 7)]) (.getConfigOf "r" "cfg")).2 =
    .entity (some 7) :=
  (C33_config_by_robot_name _ 2 "r" "cfg" ⟨[7], by decide⟩ rfl (by decide)).1
example : (step (run twins [.registerConfig (some 2) (some 7)]) (.getConfigs (some 2))).2 =
    .list [] := rfl

end Simox.Scn
