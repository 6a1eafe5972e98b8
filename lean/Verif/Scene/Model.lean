/-
Model of the scene registry.

Modelled: `/repo/VirtualRobot/Scene.cpp` lines 14-685, all registering, de-registering and lookup
functions.  Entities are identified by numbers (their addresses; `none` is the null pointer).
Not modelled: `getRobotNodeSet` (580-591) and the XML export (687-end).
-/
namespace Simox.Scn

/-- The five kinds of entities kept in plain vectors. -/
inductive Kind where
  | robot | obstacle | trajectory | manipulationObject | objectSet
deriving DecidableEq

/-- The members of `Scene` (`/repo/VirtualRobot/Scene.h`: `robots`, `obstacles`, `trajectories`,
`manipulationObjects`, `sceneObjectSets`, `robotConfigs`).  The map from robots to configurations is
an association list in key order. -/
structure Scene where
  robots : List Nat
  obstacles : List Nat
  trajectories : List Nat
  manipulationObjects : List Nat
  objectSets : List Nat
  configs : List (Nat × List Nat)

/-- Constructor (`/repo/VirtualRobot/Scene.cpp` 14-17). -/
def Scene.empty : Scene := ⟨[], [], [], [], [], []⟩

/-- A scene together with the current names of the entities of each kind, of the configurations,
and the robot each trajectory is for. -/
structure World where
  scene : Scene
  name : Kind → Nat → String
  configName : Nat → String
  trajRobot : Nat → String

/-! ### The vectors: the same code for every kind -/

/-- `hasRobot`, `hasObstacle`, ... by pointer (223-236, 251-264, 281-294, 310-323, 641-654). -/
def has (l : List Nat) (e : Nat) : Bool := l.any (fun i => i == e)

/-- `hasRobot`, ... by name (238-249, 266-277, 296-307, 325-336, 656-667). -/
def hasNamed (nm : Nat → String) (l : List Nat) (n : String) : Bool := l.any (fun i => nm i == n)

/-- The loops that erase the first match and stop (50-57, 67-74, ...). -/
def eraseFirst (hit : Nat → Bool) : List Nat → List Nat
  | [] => []
  | x :: xs => if hit x then xs else x :: eraseFirst hit xs

/-- `registerRobot`, ... (29-39, 77-87, 127-137, 175-185, 593-603). -/
def register (l : List Nat) (e : Nat) : List Nat := if has l e then l else l ++ [e]

/-- `deRegisterRobot`, ... by pointer (41-58, 89-106, 139-156, 187-204, 605-622). -/
def deRegister (l : List Nat) (e : Nat) : List Nat :=
  if has l e then eraseFirst (fun i => i == e) l else l

/-- `deRegisterRobot`, ... by name (60-75, 108-123, 158-173, 206-221, 624-639). -/
def deRegisterNamed (nm : Nat → String) (l : List Nat) (n : String) : List Nat :=
  if hasNamed nm l n then eraseFirst (fun i => nm i == n) l else l

/-- `getRobot`, ... by name (338-392, 669-680): the first match, else null. -/
def getNamed (nm : Nat → String) : List Nat → String → Option Nat
  | [], _ => none
  | x :: xs, n => if nm x == n then some x else getNamed nm xs n

/-! ### The map of configurations -/

/-- Position in key order for a new key of the map. -/
def insertKey (r : Nat) (v : List Nat) : List (Nat × List Nat) → List (Nat × List Nat)
  | [] => [(r, v)]
  | (k, u) :: m => if r < k then (r, v) :: (k, u) :: m else (k, u) :: insertKey r v m

/-- `robotConfigs.find`. -/
def find (m : List (Nat × List Nat)) (r : Nat) : Option (List Nat) := m.lookup r

/-- Assignment to an existing entry. -/
def assign (r : Nat) (v : List Nat) : List (Nat × List Nat) → List (Nat × List Nat)
  | [] => []
  | (k, u) :: m => if k = r then (k, v) :: m else (k, u) :: assign r v m

/-- `robotConfigs[robot]`: adds an empty entry if there is none. -/
def touch (m : List (Nat × List Nat)) (r : Nat) : List (Nat × List Nat) :=
  match find m r with
  | some _ => m
  | none => insertKey r [] m

/-- The value `robotConfigs[robot]` evaluates to. -/
def at' (m : List (Nat × List Nat)) (r : Nat) : List Nat := (find m r).getD []

/-- What a call returns. -/
inductive Result where
  | unit
  | bool (b : Bool)
  | entity (e : Option Nat)
  | list (l : List Nat)
  | threw
deriving DecidableEq

/-- `registerRobotConfig` (394-405). -/
def registerConfig (m : List (Nat × List Nat)) (r c : Nat) : List (Nat × List Nat) :=
  let m := touch m r
  if has (at' m r) c then m else assign r (at' m r ++ [c]) m

/-- `deRegisterRobotConfig` by pointer (415-436). -/
def deRegisterConfig (m : List (Nat × List Nat)) (r c : Nat) : List (Nat × List Nat) :=
  let m := touch m r
  if has (at' m r) c then assign r (eraseFirst (fun i => i == c) (at' m r)) m else m

/-- `deRegisterRobotConfig` by name (438-458). -/
def deRegisterConfigNamed (nm : Nat → String) (m : List (Nat × List Nat)) (r : Nat) (n : String) :
    List (Nat × List Nat) :=
  let m := touch m r
  if hasNamed nm (at' m r) n then assign r (eraseFirst (fun i => nm i == n) (at' m r)) m else m

/-- The loop of `getRobotConfig(robotName, name)` (496-502): the first key with that name. -/
def keyNamed (nm : Nat → String) : List (Nat × List Nat) → String → Option Nat
  | [], _ => none
  | (k, _) :: m, n => if nm k == n then some k else keyNamed nm m n

/-- `registerRobotConfig` for a vector (407-413); a null configuration throws (397), the ones before
it stay. -/
def registerConfigs (m : List (Nat × List Nat)) (r : Nat) :
    List (Option Nat) → List (Nat × List Nat) × Result
  | [] => (m, .unit)
  | none :: _ => (m, .threw)
  | some c :: cs => registerConfigs (registerConfig m r c) r cs

/-! ### The interface -/

/-- The calls on a scene.  `rename` is `setName` of an entity. -/
inductive Op where
  | register (k : Kind) (e : Option Nat)
  | deRegister (k : Kind) (e : Option Nat)
  | deRegisterNamed (k : Kind) (n : String)
  | has (k : Kind) (e : Option Nat)
  | hasNamed (k : Kind) (n : String)
  | get (k : Kind) (n : String)
  | getAll (k : Kind)
  | getTrajectories (robot : String)
  | rename (k : Kind) (e : Nat) (n : String)
  | registerConfig (r c : Option Nat)
  | registerConfigs (r : Option Nat) (cs : List (Option Nat))
  | deRegisterConfig (r c : Option Nat)
  | deRegisterConfigNamed (r : Option Nat) (n : String)
  | hasConfig (r c : Option Nat)
  | hasConfigNamed (r : Option Nat) (n : String)
  | getConfig (r : Option Nat) (n : String)
  | getConfigOf (robotName : String) (n : String)
  | getConfigs (r : Option Nat)

/-- The vector of a kind. -/
def Scene.list (s : Scene) : Kind → List Nat
  | .robot => s.robots
  | .obstacle => s.obstacles
  | .trajectory => s.trajectories
  | .manipulationObject => s.manipulationObjects
  | .objectSet => s.objectSets

/-- Replacing the vector of a kind: which member each function works on. -/
def Scene.setList (s : Scene) : Kind → List Nat → Scene
  | .robot, l => { s with robots := l }
  | .obstacle, l => { s with obstacles := l }
  | .trajectory, l => { s with trajectories := l }
  | .manipulationObject, l => { s with manipulationObjects := l }
  | .objectSet, l => { s with objectSets := l }

/-- Replacing the map of configurations. -/
def World.setConfigs (w : World) (m : List (Nat × List Nat)) : World :=
  { w with scene := { w.scene with configs := m } }

/-- Replacing one vector. -/
def World.setList (w : World) (k : Kind) (l : List Nat) : World :=
  { w with scene := w.scene.setList k l }

/-- Renaming. -/
def World.setName (w : World) (k : Kind) (e : Nat) (n : String) : World :=
  { w with name := fun k' e' => if k' = k ∧ e' = e then n else w.name k' e' }

/-- One call (`/repo/VirtualRobot/Scene.cpp` 29-685). -/
def step (w : World) : Op → World × Result
  | .register _ none => (w, .threw)
  | .register k (some e) => (w.setList k (register (w.scene.list k) e), .unit)
  | .deRegister _ none => (w, .threw)
  | .deRegister k (some e) => (w.setList k (deRegister (w.scene.list k) e), .unit)
  | .deRegisterNamed k n => (w.setList k (deRegisterNamed (w.name k) (w.scene.list k) n), .unit)
  | .has _ none => (w, .threw)
  | .has k (some e) => (w, .bool (has (w.scene.list k) e))
  | .hasNamed k n => (w, .bool (hasNamed (w.name k) (w.scene.list k) n))
  | .get k n => (w, .entity (getNamed (w.name k) (w.scene.list k) n))
  | .getAll k => (w, .list (w.scene.list k))
  -- 545-558
  | .getTrajectories r => (w, .list (w.scene.trajectories.filter (fun t => w.trajRobot t == r)))
  | .rename k e n => (w.setName k e n, .unit)
  | .registerConfig (some r) (some c) => (w.setConfigs (registerConfig w.scene.configs r c), .unit)
  | .registerConfig _ _ => (w, .threw)
  | .registerConfigs _ [] => (w, .unit)
  | .registerConfigs none (_ :: _) => (w, .threw)
  | .registerConfigs (some r) cs =>
    let p := registerConfigs w.scene.configs r cs
    (w.setConfigs p.1, p.2)
  | .deRegisterConfig (some r) (some c) =>
    (w.setConfigs (deRegisterConfig w.scene.configs r c), .unit)
  | .deRegisterConfig _ _ => (w, .threw)
  | .deRegisterConfigNamed (some r) n =>
    (w.setConfigs (deRegisterConfigNamed w.configName w.scene.configs r n), .unit)
  | .deRegisterConfigNamed none _ => (w, .threw)
  -- 460-475: looking up the robot's vector adds an empty entry
  | .hasConfig (some r) (some c) =>
    (w.setConfigs (touch w.scene.configs r), .bool (has (at' w.scene.configs r) c))
  | .hasConfig _ _ => (w, .threw)
  -- 477-492
  | .hasConfigNamed (some r) n =>
    (w.setConfigs (touch w.scene.configs r),
      .bool (hasNamed w.configName (at' w.scene.configs r) n))
  | .hasConfigNamed none _ => (w, .threw)
  -- 508-523
  | .getConfig (some r) n =>
    (w.setConfigs (touch w.scene.configs r),
      .entity (getNamed w.configName (at' w.scene.configs r) n))
  | .getConfig none _ => (w, .threw)
  -- 494-506
  | .getConfigOf rn n =>
    match keyNamed (w.name .robot) w.scene.configs rn with
    | some r => (w, .entity (getNamed w.configName (at' w.scene.configs r) n))
    | none => (w, .entity none)
  -- 565-578
  | .getConfigs none => (w, .list [])
  | .getConfigs (some r) =>
    if hasNamed (w.name .robot) w.scene.robots (w.name .robot r) then
      (w, .list (at' w.scene.configs r))
    else (w, .list [])

/-- A new scene; names are given to entities when they are constructed. -/
def World.start (name : Kind → Nat → String) (configName trajRobot : Nat → String) : World :=
  { scene := Scene.empty, name := name, configName := configName, trajRobot := trajRobot }

/-- The world after a sequence of calls. -/
def run (w : World) (h : List Op) : World := h.foldl (fun w op => (step w op).1) w

end Simox.Scn
