/-
Model of the runtime environment: data paths, data file lookup, key/value parameters and the vector
parser.

Modelled: `/repo/VirtualRobot/RuntimeEnvironment.cpp` 14-154, 184-215, 228-286, 342-452.

The file system is a parameter of every call, so it may change between calls.  Simplified: joining
paths (`boost::filesystem::operator/`) and `atof` are uninterpreted functions; the command line is
given in parsed form (boost::program_options is not modelled).  Not modelled: printing, `cleanup`,
`toFloat`, `toInt`.
-/
namespace Simox.Env

/-- What following links to a path finds (`boost::filesystem::status`); `error` throws. -/
inductive Status where
  | missing
  | regular
  | directory
  | other
  | error
  deriving DecidableEq

/-- A file system: the status of a path and whether the path itself is a symbolic link (`none`:
finding out throws). -/
structure FS where
  status : String → Status
  isLink : String → Option Bool

/-- `exists(p) && is_regular_file(p)` inside its `try` block (116, 136): `false` also on errors. -/
def FS.usable (fs : FS) (p : String) : Bool :=
  match fs.status p with
  | .regular => true
  | _ => false

/-- The static members (14-18). -/
structure State where
  dataPaths : List String
  keyValues : List (String × String)
  pathInitialized : Bool

/-- State at program start (14-18). -/
def start : State := ⟨[], [], false⟩

/-- `is_directory(p) || is_symlink(p)` inside its `try` block (270). -/
def FS.acceptable (fs : FS) (p : String) : Bool :=
  match fs.status p with
  | .error => false
  | .directory => true
  | _ =>
    match fs.isLink p with
    | some true => true
    | _ => false

/-- `RuntimeEnvironment::addDataPath` (264-286). -/
def addDataPath (fs : FS) (s : State) (p : String) : State × Bool :=
  if fs.acceptable p then ({ s with dataPaths := s.dataPaths ++ [p] }, true) else (s, false)

/-- What `init` reads besides the file system: environment variables, the compile time paths and the
current directory. -/
structure Config where
  getenv : String → Option String
  simoxDataPath : Option String
  virtualRobotDataPath : Option String
  virtualRobotSrcDataPath : Option String
  cwd : String
  join : String → String → String

/-- `pathFound = addDataPath(..)` (30, 37) if the variable is set. -/
def tryEnv (fs : FS) (v : Option String) (sb : State × Bool) : State × Bool :=
  match v with
  | none => sb
  | some p => addDataPath fs sb.1 p

/-- `if (!pathFound) pathFound = addDataPath(..)` (51-63, 78-86). -/
def tryIfNot (fs : FS) (p : String) (sb : State × Bool) : State × Bool :=
  if sb.2 then sb else addDataPath fs sb.1 p

/-- `pathFound = pathFound | addDataPath(..)` (68-74, 96-99). -/
def tryOr (fs : FS) (p : String) (sb : State × Bool) : State × Bool :=
  let r := addDataPath fs sb.1 p
  (r.1, sb.2 || r.2)

/-- A compile time path, if defined (67-75). -/
def tryMacro (fs : FS) (v : Option String) (sb : State × Bool) : State × Bool :=
  match v with
  | none => sb
  | some p => tryOr fs p sb

/-- The part for `Simox_DIR` (40-65). -/
def trySimoxDir (fs : FS) (v : Option String) (sb : State × Bool) : State × Bool :=
  if sb.2 then sb
  else
    match v with
    | none => sb
    | some d =>
      tryIfNot fs (d ++ "../VirtualRobot/data")
        (tryIfNot fs (d ++ "/VirtualRobot/data") (addDataPath fs sb.1 (d ++ "/data")))

/-- The last part of `init` (88-100). -/
def tryCwd (fs : FS) (c : Config) (sb : State × Bool) : State × Bool :=
  if sb.2 then sb
  else
    tryOr fs (c.join c.cwd "../../../../VirtualRobot/data")
      (tryOr fs (c.join c.cwd "../../../VirtualRobot/data")
        (tryOr fs (c.join c.cwd "../../VirtualRobot/data")
          (tryOr fs (c.join c.cwd "../VirtualRobot/data") sb)))

/-- The body of `init` (24-100). -/
def initBody (c : Config) (fs : FS) (s : State) : State :=
  let b := tryEnv fs (c.getenv "SIMOX_DATA_PATH") ({ s with pathInitialized := true }, false)
  let b := tryEnv fs (c.getenv "VIRTUAL_ROBOT_DATA_PATH") b
  let b := trySimoxDir fs (c.getenv "Simox_DIR") b
  let b := tryMacro fs c.simoxDataPath b
  let b := tryMacro fs c.virtualRobotDataPath b
  let b := tryMacro fs c.virtualRobotSrcDataPath b
  let b := tryIfNot fs "/usr/local/data" b
  let b := tryIfNot fs "/usr/data" b
  (tryCwd fs c b).1

/-- `RuntimeEnvironment::init` (20-102). -/
def init (c : Config) (fs : FS) (s : State) : State :=
  if s.pathInitialized then s else initBody c fs s

/-- The loop of `getDataFileAbsolute` over the data paths (128-151). -/
def search (c : Config) (fs : FS) (fn : String) : List String → Option String
  | [] => none
  | p :: ps => if fs.usable (c.join p fn) then some (c.join p fn) else search c fs fn ps

/-- `RuntimeEnvironment::getDataFileAbsolute` (104-154): new state, result and file name. -/
def getDataFileAbsolute (c : Config) (fs : FS) (s : State) (fn : String) : State × Bool × String :=
  let s := if s.pathInitialized then s else init c fs s
  if fs.usable fn then (s, true, fn)
  else
    match search c fs fn s.dataPaths with
    | some f => (s, true, f)
    | none => (s, false, fn)

/-- `RuntimeEnvironment::getDataPaths` (254-262). -/
def getDataPaths (c : Config) (fs : FS) (s : State) : State × List String :=
  let s := if s.pathInitialized then s else init c fs s
  (s, s.dataPaths)

/-- `keyValues[key] = value` (230). -/
def put (k v : String) : List (String × String) → List (String × String)
  | [] => [(k, v)]
  | e :: es => if e.1 = k then (k, v) :: es else e :: put k v es

/-- `keyValues.find(key)`. -/
def find (k : String) : List (String × String) → Option String
  | [] => none
  | e :: es => if e.1 = k then some e.2 else find k es

/-- `RuntimeEnvironment::addKeyValuePair` (228-231). -/
def addKeyValuePair (s : State) (k v : String) : State :=
  { s with keyValues := put k v s.keyValues }

/-- `RuntimeEnvironment::getValue` (233-241). -/
def getValue (s : State) (k : String) : String :=
  match find k s.keyValues with
  | some v => v
  | none => ""

/-- `RuntimeEnvironment::hasValue` (342-345). -/
def hasValue (s : State) (k : String) : Bool := (find k s.keyValues).isSome

/-- `RuntimeEnvironment::checkParameter` (444-452). -/
def checkParameter (s : State) (k std : String) : String :=
  if hasValue s k then getValue s k else std

/-- Second half of `checkValidFileParameter` (427-441). -/
def checkStandard (c : Config) (fs : FS) (s : State) (std : String) : State × String :=
  if std = "" then (s, std)
  else
    let r := getDataFileAbsolute c fs s std
    if r.2.1 then (r.1, r.2.2) else (r.1, std)

/-- `RuntimeEnvironment::checkValidFileParameter` (415-442). -/
def checkValidFileParameter (c : Config) (fs : FS) (s : State) (k std : String) : State × String :=
  if hasValue s k then
    let r := getDataFileAbsolute c fs s (getValue s k)
    if r.2.1 then (r.1, r.2.2) else checkStandard c fs r.1 std
  else checkStandard c fs s std

/-- `processCommandLine` (157-226) from the parsed options on: data paths in order (184-195), then
for every known key its first value (198-215). -/
def processKeys (vals : String → List String) : List String → State → State
  | [], s => s
  | k :: ks, s =>
    match vals k with
    | [] => processKeys vals ks s
    | v :: _ => processKeys vals ks (addKeyValuePair s k v)

/-- Data paths of the command line (190-194). -/
def addDataPaths (fs : FS) : List String → State → State
  | [], s => s
  | p :: ps, s => addDataPaths fs ps (addDataPath fs s p).1

/-- See `processKeys`. -/
def processCommandLine (c : Config) (fs : FS) (s : State) (paths keys : List String)
    (vals : String → List String) : State :=
  let s := if s.pathInitialized then s else init c fs s
  processKeys vals keys (addDataPaths fs paths s)

/-- The calls that touch the data paths. -/
inductive Op where
  | add (p : String)
  | lookup (fn : String)
  | list
  | set (k v : String)
  | commandLine (paths keys : List String) (vals : String → List String)

/-- Effect of a call. -/
def step (c : Config) (fs : FS) (s : State) : Op → State
  | .add p => (addDataPath fs s p).1
  | .lookup fn => (getDataFileAbsolute c fs s fn).1
  | .list => (getDataPaths c fs s).1
  | .set k v => addKeyValuePair s k v
  | .commandLine ps ks vs => processCommandLine c fs s ps ks vs

/-- A sequence of calls, each with the file system it finds. -/
def run (c : Config) : List (FS × Op) → State → State
  | [], s => s
  | e :: es, s => run c es (step c e.1 s e.2)

/-! ### Vector parser -/

/-- `boost::split(strs, s, is_any_of(","))` (379). -/
def splitComma : List Char → List (List Char)
  | [] => [[]]
  | ch :: cs =>
    if ch = ',' then [] :: splitComma cs
    else
      match splitComma cs with
      | [] => [[ch]]
      | t :: ts => (ch :: t) :: ts

/-- `RuntimeEnvironment::toVector3f` (360-413); `none`: the call fails and leaves the result as it
was.  `atof` and the test for finite numbers are parameters. -/
def toVector3f {F : Type} (atof : List Char → F) (finite : F → Bool) (s : List Char) :
    Option (F × F × F) :=
  if s.length < 3 then none
  else if s[0]? ≠ some '(' ∨ s[s.length - 1]? ≠ some ')' then none
  else
    match splitComma (s.tail.dropLast) with
    | [x, y, z] =>
      if !finite (atof x) then none
      else if !finite (atof y) then none
      else if !finite (atof z) then none
      else some (atof x, atof y, atof z)
    | _ => none

end Simox.Env
